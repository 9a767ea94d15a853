import Verif.Chars
import Verif.Channel
import Mathlib.Algebra.Order.Field.Rat
/-!
Model of writing a binary to a table and reading it back, `/repo/posydon/binary_evol/binarystar.py`: `BinaryStar.to_df`
(l.412-604), `from_df` (l.606-725), `to_oneline_df` (l.727-792), `from_oneline_df` (l.794-942), with `SingleStar.to_df`
(`singlestar.py` l.421-519), `to_oneline_df` (l.521-586), the assignments of `SingleStar.__init__` (l.318-325) and
`BinaryStar.__init__` (l.164-188), and the look-up of data types in `clean_binary_oneline_df` (`/repo/posydon/popsyn/io.py`
l.286-336).

Simplification: a table is a list of named columns and the name of its index; names are lists of characters. Values are
`None`, the value written for it, a vector, or any other value, which the conversion to the data type of the column leaves as
it is. The tables of binary and stars that are joined have equally many rows (pandas would fill up). The orbital separation
for a period and two masses, and the defaults of a new star, are parameters. Columns other than those of properties do not
contain `_history`.
-/
namespace Verif.Frame

open Verif.Channel (repl)

abbrev Name := List Char

/-- Python's `p in s` for strings. -/
def isIn (p s : Name) : Bool := s.tails.any (fun t => p.isPrefixOf t)

/-- Worker of `split`: characters of a match still to be skipped, the present piece reversed, the rest. -/
def splitGo (sep : Name) : ℕ → Name → Name → List Name
  | _, cur, [] => [cur.reverse]
  | k + 1, cur, _ :: s => splitGo sep k cur s
  | 0, cur, c :: s =>
    if sep.isPrefixOf (c :: s) then cur.reverse :: splitGo sep (sep.length - 1) [] s else splitGo sep 0 (c :: cur) s

/-- `s.split(sep)` -/
def split (sep s : Name) : List Name := splitGo sep 0 [] s

/-- `s.split(sep)[0]` -/
def before (sep s : Name) : Name := (split sep s).headD []

/-- `s.split(sep)[-1]` -/
def after (sep s : Name) : Name := (split sep s).getLastD []

/-- A value of a history. -/
inductive V
  | none
  | null
  | vec (x y z : Option ℚ)
  | atom (a : ℕ)
  deriving DecidableEq

/-- `BINARYPROPERTIES`, binarystar.py l.88-118. -/
def binaryProps : List Name := [
  (chars! "state"), (chars! "event"), (chars! "time"), (chars! "separation"), (chars! "orbital_period"), (chars! "eccentricity"),
  (chars! "V_sys"), (chars! "rl_relative_overflow_1"), (chars! "rl_relative_overflow_2"), (chars! "lg_mtransfer_rate"),
  (chars! "mass_transfer_case"), (chars! "trap_radius"), (chars! "acc_radius"), (chars! "t_sync_rad_1"), (chars! "t_sync_conv_1"),
  (chars! "t_sync_rad_2"), (chars! "t_sync_conv_2"), (chars! "nearest_neighbour_distance")]

/-- `STARPROPERTIES`, singlestar.py l.40-111. -/
def starProps : List Name := [
  (chars! "state"), (chars! "metallicity"), (chars! "mass"), (chars! "log_R"), (chars! "log_L"), (chars! "lg_mdot"),
  (chars! "lg_system_mdot"), (chars! "lg_wind_mdot"), (chars! "he_core_mass"), (chars! "he_core_radius"), (chars! "c_core_mass"),
  (chars! "c_core_radius"), (chars! "o_core_mass"), (chars! "o_core_radius"), (chars! "co_core_mass"), (chars! "co_core_radius"),
  (chars! "center_h1"), (chars! "center_he4"), (chars! "center_c12"), (chars! "center_n14"), (chars! "center_o16"),
  (chars! "surface_h1"), (chars! "surface_he4"), (chars! "surface_c12"), (chars! "surface_n14"), (chars! "surface_o16"),
  (chars! "log_LH"), (chars! "log_LHe"), (chars! "log_LZ"), (chars! "log_Lnuc"), (chars! "c12_c12"), (chars! "center_gamma"),
  (chars! "avg_c_in_c_core"), (chars! "surf_avg_omega"), (chars! "surf_avg_omega_div_omega_crit"),
  (chars! "total_moment_of_inertia"), (chars! "log_total_angular_momentum"), (chars! "spin"), (chars! "conv_env_top_mass"),
  (chars! "conv_env_bot_mass"), (chars! "conv_env_top_radius"), (chars! "conv_env_bot_radius"),
  (chars! "conv_env_turnover_time_g"), (chars! "conv_env_turnover_time_l_b"), (chars! "conv_env_turnover_time_l_t"),
  (chars! "envelope_binding_energy"), (chars! "mass_conv_reg_fortides"), (chars! "thickness_conv_reg_fortides"),
  (chars! "radius_conv_reg_fortides"), (chars! "lambda_CE_1cent"), (chars! "lambda_CE_10cent"), (chars! "lambda_CE_30cent"),
  (chars! "lambda_CE_pure_He_star_10cent"), (chars! "profile"), (chars! "total_mass_h1"), (chars! "total_mass_he4")]

inductive Err
  | attribute | type | assertion | index | key | value
  deriving DecidableEq

abbrev Cols := List (Name × List V)

/-- The histories of an object, by the name of the property. -/
abbrev Hist := Name → Option (List V)

structure Binary where
  idx : ℕ
  b : Hist
  s1 : Hist
  s2 : Hist

/-! ### Writing -/

/-- `ignore_columns` and `only_select_columns`. -/
structure Sel where
  ignore : List Name
  select : List Name

/-- l.503-515 (singlestar.py l.458-475): the properties that are written. -/
def keys (props : List Name) (o : Sel) : List Name :=
  if o.select = [] then props.filter fun p => !(o.ignore.contains p || o.ignore.contains (p ++ (chars! "_history"))) else o.select

/-- The histories of the properties, l.518 (478). -/
def collect (h : Hist) : List Name → Except Err Cols
  | [] => .ok []
  | p :: ps =>
    match h p with
    | Option.none => .error .attribute
    | some c =>
      match collect h ps with
      | .error e => .error e
      | .ok r => .ok ((p, c) :: r)

def maxLen (cols : Cols) : ℕ := (cols.map fun c => c.2.length).foldr max 0

/-- l.527-529 (486-489): shorter histories are filled up. The lists that are filled up are those of the binary itself. -/
def fillUp (fill : Name → V) (cols : Cols) : Cols :=
  cols.map fun c => (c.1, c.2 ++ List.replicate (maxLen cols - c.2.length) (fill c.1))

/-- l.542 (505) -/
def nullify : V → V
  | .none => .null
  | v => v

inductive Dt
  | string | float | object
  deriving DecidableEq

/-- `BINARYPROPERTIES_DTYPES`, `/repo/posydon/popsyn/io.py` l.24-52. -/
def dtypeB (k : Name) : Option Dt :=
  if k ∈ [(chars! "state"), (chars! "event"), (chars! "mass_transfer_case")] then some .string
  else if k ∈ [(chars! "V_sys"), (chars! "nearest_neighbour_distance")] then some .object
  else if k ∈ binaryProps then some .float
  else Option.none

/-- Value that fills up a column of the binary, l.464-491, by its key; `atom 0` is the empty string. -/
def filler (k : Name) : V :=
  match dtypeB k with
  | some .string => .atom 0
  | some .float => .null
  | some .object => .vec Option.none Option.none Option.none
  | Option.none => .none

/-- The key handed over for a history is the name of the attribute, l.503-504 and 528. -/
def fillBinary (p : Name) : V := filler (p ++ (chars! "_history"))

def component (i : ℕ) : V → Except Err V
  | .vec x y z => .ok (match (if i = 0 then x else if i = 1 then y else z) with
    | Option.none => .null
    | some q => .vec (some q) Option.none Option.none)
  | _ => .error .type

def mapE (f : V → Except Err V) : List V → Except Err (List V)
  | [] => .ok []
  | v :: l =>
    match f v with
    | .error e => .error e
    | .ok w =>
      match mapE f l with
      | .error e => .error e
      | .ok r => .ok (w :: r)

def get? (cols : Cols) (p : Name) : Option (List V) := (cols.find? fun c => c.1 == p).map (·.2)

/-- l.551-565 (568-582): a column of vectors is replaced by three columns at the end. -/
def spread (p out : Name) (cols : Cols) : Except Err Cols :=
  match get? cols p with
  | Option.none => .ok cols
  | some c =>
    match mapE (component 0) c, mapE (component 1) c, mapE (component 2) c with
    | .ok x, .ok y, .ok z =>
      .ok ((cols.filter fun c => c.1 != p) ++ [(out ++ (chars! "_x"), x), (out ++ (chars! "_y"), y), (out ++ (chars! "_z"), z)])
    | _, _, _ => .error .type

/-- `SingleStar.to_df`, l.454-519. -/
def starDf (pre : Name) (profile : Bool) (o : Sel) (h : Hist) : Except Err Cols :=
  match collect h (keys starProps (if profile then o else { o with ignore := o.ignore ++ [(chars! "profile")] })) with
  | .error e => .error e
  | .ok [] => .error .value
  | .ok cols => .ok ((fillUp (fun _ => .null) cols).map fun c => (pre ++ c.1, c.2.map nullify))

/-- A table: the name of the index, its value, the columns. -/
structure Table where
  idxName : Option Name
  idx : ℕ
  cols : Cols

/-- The columns of the binary itself, l.497-582. Without any column the largest length does not exist (l.520, 482); if the index
is to be ignored it is missing later (l.596). -/
def ownDf (o : Sel) (h : Hist) : Except Err Cols :=
  if o.select = [] ∧ (chars! "binary_index") ∈ o.ignore then .error .key
  else match collect h (keys binaryProps o) with
  | .error e => .error e
  | .ok [] => .error .value
  | .ok cols =>
    match spread (chars! "V_sys") (chars! "V_sys") ((fillUp fillBinary cols).map fun c => (c.1, c.2.map nullify)) with
    | .error e => .error e
    | .ok cols1 => spread (chars! "nearest_neighbour_distance") (chars! "NN_dist") cols1

/-- `BinaryStar.to_df` with both stars, l.584-604. -/
def toDf (o o1 o2 : Sel) (profile : Bool) (x : Binary) : Except Err Table :=
  match ownDf o x.b with
  | .error e => .error e
  | .ok cb =>
    match starDf (chars! "S1_") profile o1 x.s1 with
    | .error e => .error e
    | .ok c1 =>
      match starDf (chars! "S2_") profile o2 x.s2 with
      | .error e => .error e
      | .ok c2 => .ok ⟨some (chars! "binary_index"), x.idx, cb ++ c1 ++ c2⟩

/-- What `to_df` leaves in the histories of the binary: they are filled up in place, l.494. -/
def leftIn (o : Sel) (h : Hist) : Except Err Cols :=
  match collect h (keys binaryProps o) with
  | .error e => .error e
  | .ok cols => .ok (fillUp fillBinary cols)

/-! ### Reading -/

inductive Whose
  | b | s1 | s2
  deriving DecidableEq

/-- l.634-649: whose property a column holds, and its name. -/
def parse (n : Name) : Whose × Name :=
  if isIn (chars! "S1") n then (.s1, after (chars! "S1_") n)
  else if isIn (chars! "S2") n then (.s2, after (chars! "S2_") n)
  else (.b, n)

/-- The dictionary of one of the three objects. -/
def params (w : Whose) (cols : Cols) : Cols := cols.filterMap fun c => if (parse c.1).1 = w then some ((parse c.1).2, c.2) else Option.none

/-- Look-up in a dictionary: the last assignment counts. -/
def lookup (d : Cols) (p : Name) : Option (List V) := get? d.reverse p

/-- The value of a new binary for a property that is not given, l.165-183. `atom 1` is the string "None", `atom 2` the number 0. -/
def defaultB (p : Name) : V :=
  if p = (chars! "V_sys") ∨ p = (chars! "nearest_neighbour_distance") then .vec (some 0) (some 0) (some 0)
  else if p = (chars! "mass_transfer_case") then .atom 1
  else if p = (chars! "eccentricity") then .atom 2
  else .none

/-- A binary that was read: histories and present values. -/
structure Read where
  idx : Option ℕ
  b : Hist
  s1 : Hist
  s2 : Hist
  curB : Name → Option V
  curS1 : Name → Option V
  curS2 : Name → Option V

/-- The history of a property: given, or the default, as long as the table (l.700-723). -/
def history (props : List Name) (dflt : Name → V) (d : Cols) (n : ℕ) (p : Name) : Option (List V) :=
  match lookup d p with
  | some c => some c
  | Option.none => if p ∈ props then some (dflt p :: List.replicate (n - 1) (dflt p)) else Option.none

/-- The present value: the last given (l.693-697) or the default. -/
def current (props : List Name) (dflt : Name → V) (d : Cols) (p : Name) : Option V :=
  match lookup (d.map fun c => (before (chars! "_history") (c.1 ++ (chars! "_history")), c.2)) p with
  | some c => c.getLast?
  | Option.none => if p ∈ props then some (dflt p) else Option.none

/-- The history of masses for the separation, l.677-680: with one entry for all rows if it is not given. -/
def masses (dflt : Name → V) (d : Cols) (n : ℕ) : List V := ((history starProps dflt d n (chars! "mass")).getD [])

/-- The separations for the given periods and the masses, l.673-682. -/
def separations (fromPeriod : V → V → V → V) (dS : Name → V) (cols : Cols) (n : ℕ) : List V :=
  (((lookup (params .b cols) (chars! "orbital_period")).getD []).zip
    ((masses dS (params .s1 cols) n).zip (masses dS (params .s2 cols) n))).map fun x => fromPeriod x.1 x.2.1 x.2.2

/-- Whether the separation is to be computed, l.674-675. -/
def fixed (cols : Cols) : Bool :=
  (lookup (params .b cols) (chars! "separation")).isNone && (lookup (params .b cols) (chars! "orbital_period")).isSome

/-- The binary with the given columns, l.660-723. -/
def build (fromPeriod : V → V → V → V) (dS : Name → V) (idx : Option ℕ) (cols : Cols) (n : ℕ) : Read where
  idx := idx
  b p := if fixed cols = true ∧ p = (chars! "separation") then some (separations fromPeriod dS cols n)
    else history binaryProps defaultB (params .b cols) n p
  s1 := history starProps dS (params .s1 cols) n
  s2 := history starProps dS (params .s2 cols) n
  curB p := if fixed cols = true ∧ p = (chars! "separation") then (separations fromPeriod dS cols n).getLast?
    else current binaryProps defaultB (params .b cols) p
  curS1 := current starProps dS (params .s1 cols)
  curS2 := current starProps dS (params .s2 cols)

/-- `from_df`, l.625-725, without extra columns; `fromPeriod` gives the separation for a period and two masses,
`dS` the value of a new star for a property that is not given, and `given` is the argument `index`. -/
def fromDf (fromPeriod : V → V → V → V) (dS : Name → V) (given : Option ℕ) (t : Table) : Except Err Read :=
  match t.cols with
  | [] => .error .assertion
  | c0 :: rest =>
    if rest.any fun c => c.2.length != c0.2.length then .error .assertion
    else match t.idxName with
      | Option.none => .error .type
      | some nm =>
        let own := isIn (chars! "binary_index") nm && (given.getD 0 == 0)
        if c0.2.length = 0 then if own then .error .key else .error .index
        else .ok (build fromPeriod dS (if own then some t.idx else given) t.cols c0.2.length)

/-- A row handed over as a series, l.625-626: a table whose index has no name. -/
def ofSeries (row : List (Name × V)) : Table := ⟨Option.none, 0, row.map fun c => (c.1, [c.2])⟩

/-! ### One line -/

/-- `to_oneline_df`, l.729-742: the first and the last row. -/
def toOneline (t : Table) : List (Name × V) :=
  (t.cols.map fun c => (c.1 ++ (chars! "_i"), c.2.headD .null)) ++ (t.cols.map fun c => (c.1 ++ (chars! "_f"), c.2.getLastD .null))

/-- An attribute: a single value or a list. -/
inductive A
  | val (v : V)
  | list (l : List V)
  deriving DecidableEq

/-- What a column is taken for, l.824-856: nothing, or an argument of the binary or of a star. -/
def parseLine (n : Name) : Option (Whose × Name) :=
  let p := before (chars! "_i") n
  if isIn (chars! "_f") (n.drop (n.length - 2)) then Option.none
  else if isIn (chars! "natal_kick_array") p then Option.none
  else if n = (chars! "FAILED") ∨ n = (chars! "WARNING") then Option.none
  else if isIn (chars! "S1") n then
    let q := after (chars! "S1_") p
    some (.s1, if q ∈ starProps then q ++ (chars! "_history") else q)
  else if isIn (chars! "S2") n then
    let q := after (chars! "S2_") p
    some (.s2, if q ∈ starProps then q ++ (chars! "_history") else q)
  else some (.b, if p ∈ binaryProps then p ++ (chars! "_history") else p)

/-- The arguments of one of the three objects. -/
def lineParams (w : Whose) (row : List (Name × V)) : List (Name × V) := row.filterMap fun c =>
  match parseLine c.1 with
  | some (w', p) => if w' = w then some (p, c.2) else Option.none
  | Option.none => Option.none

/-- The assignments to an object, in order: by the constructor (a list for each argument), then the present values, l.921-925. -/
def assigned (d : List (Name × V)) : List (Name × A) :=
  d.map (fun c => (c.1, A.list [c.2])) ++ d.map (fun c => (before (chars! "_history") c.1, A.val c.2))

/-- An attribute after these assignments. -/
def attr (l : List (Name × A)) (p : Name) : Option A := (l.reverse.find? fun c => c.1 == p).map (·.2)

structure ReadLine where
  b : Name → Option A
  s1 : Name → Option A
  s2 : Name → Option A

/-- `from_oneline_df`, l.817-942, without the separation for a period; `failed` is `atom 6`. The names of the columns of an old
array of kicks lead to single values, which have no last entry (l.863-881 and 925). -/
def fromOneline (idxName : Option Name) (row : List (Name × V)) : Except Err ReadLine :=
  let old := fun w : Name => row.any fun c => isIn (w ++ (chars! "_natal_kick_array")) c.1
  let complete := fun w : Name => [(chars! "0"), (chars! "1"), (chars! "2"), (chars! "3")].all fun i =>
    row.any fun c => c.1 == w ++ (chars! "_natal_kick_array_") ++ i
  if row.all fun c => (parseLine c.1).isNone then .error .assertion
  else if (old (chars! "S1") && !complete (chars! "S1")) || (old (chars! "S2") && !complete (chars! "S2")) then .error .key
  else match idxName with
    | Option.none => .error .type
    | some _ =>
      if old (chars! "S1") || old (chars! "S2") then .error .index else
      match row.find? fun c => c.1 == (chars! "FAILED") with
      | Option.none => .error .key
      | some f =>
        let d := lineParams .b row
        let ab := attr (assigned d)
        .ok ⟨fun p => if p = (chars! "event") ∧ f.2 ≠ .atom 2 then some (.val (.atom 6)) else ab p, attr (assigned (lineParams .s1 row)),
          attr (assigned (lineParams .s2 row))⟩

/-! ### Data types -/

/-- `strip_prefix_and_suffix`, io.py l.321-322. -/
def strip (k : Name) : Name :=
  repl (chars! "S2_") [] 0 (repl (chars! "S1_") [] 0 (repl (chars! "_f") [] 0 (repl (chars! "_i") [] 0 k)))

/-- The data type found for the initial or final value of a column, l.327-332, in a dictionary; `none` makes pandas convert to
`float64`. -/
def found {D : Type} (dict : Name → Option D) (k : Name) : Option D := dict (strip k)

/-! ### Specification -/

/-- A binary with complete histories of one length: the histories are `fb`, `f1`, `f2`; velocities are vectors. -/
structure Full (x : Binary) (n : ℕ) (fb f1 f2 : Name → List V) : Prop where
  b : ∀ p ∈ binaryProps, x.b p = some (fb p)
  s1 : ∀ p ∈ starProps, x.s1 p = some (f1 p)
  s2 : ∀ p ∈ starProps, x.s2 p = some (f2 p)
  lb : ∀ p ∈ binaryProps, (fb p).length = n
  l1 : ∀ p ∈ starProps, (f1 p).length = n
  l2 : ∀ p ∈ starProps, (f2 p).length = n
  pos : 0 < n
  vec : ∀ v ∈ fb (chars! "V_sys"), ∃ a b c, v = .vec a b c
  vec' : ∀ v ∈ fb (chars! "nearest_neighbour_distance"), ∃ a b c, v = .vec a b c

/-- A choice of columns: known properties, at least one. -/
def Sel.Known (o : Sel) (props : List Name) : Prop := (∀ p ∈ o.select, p ∈ props) ∧ keys props o ≠ []

/-! ### Lemmas -/

theorem collect_ok {h : Hist} {f : Name → List V} : ∀ {ps : List Name}, (∀ p ∈ ps, h p = some (f p)) →
    collect h ps = .ok (ps.map fun p => (p, f p))
  | [], _ => rfl
  | p :: ps, H => by
    have h1 := H p List.mem_cons_self
    have h2 := collect_ok (ps := ps) fun q hq => H q (List.mem_cons_of_mem _ hq)
    simp only [collect, h1, h2, List.map_cons]

theorem le_maxLen {cols : Cols} : ∀ c ∈ cols, c.2.length ≤ maxLen cols := by
  induction cols with
  | nil => simp
  | cons a l ih =>
    intro c hc
    rcases List.mem_cons.1 hc with rfl | hc
    · simp [maxLen]
    · have := ih c hc
      simp only [maxLen, List.map_cons, List.foldr_cons] at this ⊢
      omega

theorem maxLen_le {cols : Cols} {n : ℕ} (h : ∀ c ∈ cols, c.2.length ≤ n) : maxLen cols ≤ n := by
  induction cols with
  | nil => simp [maxLen]
  | cons a l ih =>
    have h1 := h a List.mem_cons_self
    have h2 := ih fun c hc => h c (List.mem_cons_of_mem _ hc)
    simp only [maxLen, List.map_cons, List.foldr_cons] at h2 ⊢
    omega

theorem fillUp_id {fill : Name → V} {cols : Cols} {n : ℕ} (h : ∀ c ∈ cols, c.2.length = n) : fillUp fill cols = cols := by
  unfold fillUp
  conv_rhs => rw [← List.map_id cols]
  apply List.map_congr_left
  intro c hc
  have h1 := maxLen_le fun c hc => (h c hc).le
  have : maxLen cols - c.2.length = 0 := by rw [h c hc]; omega
  simp [this]

theorem get?_append (a b : Cols) (p : Name) : get? (a ++ b) p = (get? a p).or (get? b p) := by
  simp only [get?, List.find?_append]
  cases List.find? (fun c => c.1 == p) a <;> simp

theorem get?_map (ks : List Name) (f : Name → List V) (p : Name) :
    get? (ks.map fun k => (k, f k)) p = if p ∈ ks then some (f p) else Option.none := by
  induction ks with
  | nil => simp [get?]
  | cons k ks ih =>
    by_cases hk : k = p
    · subst hk
      simp [get?]
    · have hne : (k == p) = false := beq_eq_false_iff_ne.2 hk
      have : get? ((k :: ks).map fun k => (k, f k)) p = get? (ks.map fun k => (k, f k)) p := by
        simp [get?, hne]
      rw [this, ih]
      simp [Ne.symm hk]

theorem get?_none {cols : Cols} {p : Name} (h : ∀ c ∈ cols, c.1 ≠ p) : get? cols p = Option.none := by
  simp only [get?, Option.map_eq_none_iff, List.find?_eq_none]
  intro c hc
  simpa using h c hc

theorem get?_mem {cols : Cols} {p : Name} {c : List V} (h : get? cols p = some c) : (p, c) ∈ cols := by
  simp only [get?, Option.map_eq_some_iff] at h
  obtain ⟨a, ha, rfl⟩ := h
  have h1 := List.mem_of_find?_eq_some ha
  have h2 := List.find?_some ha
  simp only [beq_iff_eq] at h2
  subst h2
  exact h1

theorem lookup_append (a b : Cols) (p : Name) : lookup (a ++ b) p = (lookup b p).or (lookup a p) := by
  simp only [lookup, List.reverse_append, get?_append]

theorem lookup_map (ks : List Name) (f : Name → List V) (p : Name) :
    lookup (ks.map fun k => (k, f k)) p = if p ∈ ks then some (f p) else Option.none := by
  unfold lookup
  rw [← List.map_reverse, get?_map]
  simp

theorem lookup_none {cols : Cols} {p : Name} (h : ∀ c ∈ cols, c.1 ≠ p) : lookup cols p = Option.none :=
  get?_none fun c hc => h c (List.mem_reverse.1 hc)

theorem lookup_mem {cols : Cols} {p : Name} {c : List V} (h : lookup cols p = some c) : (p, c) ∈ cols :=
  List.mem_reverse.1 (get?_mem h)

theorem mapE_component (i : ℕ) : ∀ {l : List V}, (∀ v ∈ l, ∃ a b c, v = .vec a b c) →
    ∃ r, mapE (component i) l = .ok r ∧ r.length = l.length
  | [], _ => ⟨[], rfl, rfl⟩
  | v :: l, H => by
    obtain ⟨a, b, c, rfl⟩ := H v List.mem_cons_self
    obtain ⟨r, hr, hl⟩ := mapE_component i (l := l) fun w hw => H w (List.mem_cons_of_mem _ hw)
    obtain ⟨w, hw⟩ : ∃ w, component i (.vec a b c) = .ok w := ⟨_, rfl⟩
    exact ⟨w :: r, by simp only [mapE, hw, hr], by simp [hl]⟩

theorem mapE_error (i : ℕ) : ∀ {l : List V}, (∃ v ∈ l, ∀ a b c, v ≠ .vec a b c) → mapE (component i) l = .error .type
  | [], H => by simp at H
  | v :: l, H => by
    by_cases hv : ∃ a b c, v = .vec a b c
    · obtain ⟨a, b, c, rfl⟩ := hv
      have h2 : ∃ v ∈ l, ∀ a b c, v ≠ .vec a b c := by
        obtain ⟨w, hw, hn⟩ := H
        rcases List.mem_cons.1 hw with rfl | hw
        · exact absurd rfl (hn a b c)
        · exact ⟨w, hw, hn⟩
      have := mapE_error i h2
      simp only [mapE, component, this]
    · have : component i v = .error .type := by
        cases v with
        | vec a b c => exact absurd ⟨a, b, c, rfl⟩ hv
        | _ => rfl
      simp only [mapE, this]

/-- The three columns for a vector. -/
def three (out : Name) : List Name := [out ++ (chars! "_x"), out ++ (chars! "_y"), out ++ (chars! "_z")]

theorem spread_ok {p out : Name} {ks : List Name} {f : Name → List V} {ext : Cols} {n : ℕ} (hext : ∀ c ∈ ext, c.1 ≠ p)
    (hv : p ∈ ks → ∀ v ∈ f p, ∃ a b c, v = .vec a b c) (hl : p ∈ ks → (f p).length = n) :
    ∃ ext', spread p out (ks.map (fun k => (k, f k)) ++ ext) = .ok ((ks.filter (· != p)).map (fun k => (k, f k)) ++ (ext ++ ext')) ∧
      (∀ c ∈ ext', c.1 ∈ three out ∧ c.2.length = n) ∧ (p ∉ ks → ext' = []) := by
  by_cases hp : p ∈ ks
  · have hg : get? (ks.map (fun k => (k, f k)) ++ ext) p = some (f p) := by
      rw [get?_append, get?_map, if_pos hp]; rfl
    obtain ⟨x, hx, lx⟩ := mapE_component 0 (hv hp)
    obtain ⟨y, hy, ly⟩ := mapE_component 1 (hv hp)
    obtain ⟨z, hz, lz⟩ := mapE_component 2 (hv hp)
    refine ⟨[(out ++ (chars! "_x"), x), (out ++ (chars! "_y"), y), (out ++ (chars! "_z"), z)], ?_, ?_, fun h => absurd hp h⟩
    · unfold spread
      rw [hg]
      simp only [hx, hy, hz, List.filter_append]
      have h1 : (ks.map fun k => (k, f k)).filter (fun c => c.1 != p) = (ks.filter (· != p)).map fun k => (k, f k) := by
        rw [List.filter_map]; rfl
      have h2 : ext.filter (fun c => c.1 != p) = ext := by
        rw [List.filter_eq_self]
        intro c hc
        simpa using hext c hc
      rw [h1, h2, List.append_assoc]
    · intro c hc
      simp only [List.mem_cons, List.not_mem_nil, or_false] at hc
      rcases hc with rfl | rfl | rfl <;> simp only [three, List.mem_cons, true_or, or_true, true_and] <;>
        (rw [← hl hp]; assumption)
  · have hg : get? (ks.map (fun k => (k, f k)) ++ ext) p = Option.none := by
      rw [get?_append, get?_map, if_neg hp, get?_none hext]; rfl
    refine ⟨[], ?_, by simp, fun _ => rfl⟩
    unfold spread
    rw [hg]
    have h1 : ks.filter (· != p) = ks := by
      rw [List.filter_eq_self]
      intro k hk
      have : k ≠ p := fun e => hp (e ▸ hk)
      simpa using this
    rw [h1]
    simp

/-- The names of all columns of the binary itself. -/
def ownNames : List Name := binaryProps ++ (three (chars! "V_sys") ++ three (chars! "NN_dist"))

theorem own_parse : ∀ k ∈ ownNames, parse k = (.b, k) := by decide +kernel

theorem s1_parse : ∀ p ∈ starProps, parse ((chars! "S1_") ++ p) = (.s1, p) := by decide +kernel

theorem s2_parse : ∀ p ∈ starProps, parse ((chars! "S2_") ++ p) = (.s2, p) := by decide +kernel

theorem own_before : ∀ k ∈ ownNames, before (chars! "_history") (k ++ (chars! "_history")) = k := by decide +kernel

theorem star_before : ∀ k ∈ starProps, before (chars! "_history") (k ++ (chars! "_history")) = k := by decide +kernel

theorem three_not_prop : ∀ k ∈ three (chars! "V_sys") ++ three (chars! "NN_dist"), k ∉ binaryProps := by decide +kernel

theorem keys_sub {props : List Name} {o : Sel} (h : ∀ p ∈ o.select, p ∈ props) : ∀ p ∈ keys props o, p ∈ props := by
  intro p hp
  unfold keys at hp
  split at hp
  · exact (List.mem_filter.1 hp).1
  · exact h p hp

theorem nullify_vec {l : List V} (h : ∀ v ∈ l, ∃ a b c, v = .vec a b c) : ∀ v ∈ l.map nullify, ∃ a b c, v = .vec a b c := by
  intro v hv
  obtain ⟨w, hw, rfl⟩ := List.mem_map.1 hv
  obtain ⟨a, b, c, rfl⟩ := h w hw
  exact ⟨a, b, c, rfl⟩

/-- The vectors among the properties of a binary. -/
def vectors : List Name := [(chars! "V_sys"), (chars! "nearest_neighbour_distance")]

/-- The columns of a complete binary. -/
theorem ownDf_ok {x : Binary} {n : ℕ} {fb f1 f2 : Name → List V} (h : Full x n fb f1 f2) {o : Sel} (ho : o.Known binaryProps)
    (hi : o.select = [] → (chars! "binary_index") ∉ o.ignore) : ∃ ext, ownDf o x.b =
      .ok (((keys binaryProps o).filter (· ∉ vectors)).map (fun k => (k, (fb k).map nullify)) ++ ext) ∧
      (∀ c ∈ ext, c.1 ∈ three (chars! "V_sys") ++ three (chars! "NN_dist") ∧ c.2.length = n) := by
  have hsub := keys_sub ho.1
  have hc := collect_ok (h := x.b) (f := fb) (ps := keys binaryProps o) fun p hp => h.b p (hsub p hp)
  have hf : fillUp fillBinary ((keys binaryProps o).map fun p => (p, fb p)) = (keys binaryProps o).map fun p => (p, fb p) := by
    apply fillUp_id (n := n)
    intro c hc
    obtain ⟨p, hp, rfl⟩ := List.mem_map.1 hc
    exact h.lb p (hsub p hp)
  have hm : ((keys binaryProps o).map fun p => (p, fb p)).map (fun c => (c.1, c.2.map nullify)) =
      (keys binaryProps o).map (fun k => (k, (fb k).map nullify)) ++ [] := by simp
  obtain ⟨e1, h1, g1, _⟩ := spread_ok (p := (chars! "V_sys")) (out := (chars! "V_sys")) (ks := keys binaryProps o)
    (f := fun k => (fb k).map nullify) (ext := []) (n := n) (by simp) (fun _ => nullify_vec h.vec)
    (fun hp => by rw [List.length_map]; exact h.lb _ (hsub _ hp))
  have hne : ∀ k ∈ three (chars! "V_sys"), k ≠ (chars! "nearest_neighbour_distance") := by decide +kernel
  obtain ⟨e2, h2, g2, _⟩ := spread_ok (p := (chars! "nearest_neighbour_distance")) (out := (chars! "NN_dist"))
    (ks := (keys binaryProps o).filter (· != (chars! "V_sys")))
    (f := fun k => (fb k).map nullify) (ext := [] ++ e1) (n := n) (fun c hc => hne _ (g1 c (by simpa using hc)).1) (fun _ => nullify_vec h.vec')
    (fun hp => by rw [List.length_map]; exact h.lb _ (hsub _ (List.mem_filter.1 hp).1))
  refine ⟨[] ++ e1 ++ e2, ?_, ?_⟩
  · unfold ownDf
    rw [if_neg (fun hh => hi hh.1 hh.2), hc]
    have hnil : ((keys binaryProps o).map fun p => (p, fb p)) ≠ [] := by simpa using ho.2
    split
    · rename_i e; simp at e
    · rename_i e; simp only [Except.ok.injEq] at e; exact absurd e hnil
    · rename_i cols _ e
      simp only [Except.ok.injEq] at e
      rw [← e, hf, hm, h1]
      dsimp only
      rw [h2]
      congr 2
      rw [List.filter_filter]
      congr 1
      apply List.filter_congr
      intro k _
      unfold vectors
      generalize (chars! "V_sys") = a
      generalize (chars! "nearest_neighbour_distance") = b
      by_cases e1 : k = a <;> by_cases e2 : k = b <;> simp [e1, e2]
  · intro c hc
    rcases List.mem_append.1 hc with hc | hc
    · have := g1 c (by simpa using hc)
      exact ⟨List.mem_append_left _ this.1, this.2⟩
    · have := g2 c hc
      exact ⟨List.mem_append_right _ this.1, this.2⟩

/-- The choice of columns of a star. -/
def starSel (profile : Bool) (o : Sel) : Sel := if profile then o else { o with ignore := o.ignore ++ [(chars! "profile")] }

theorem starDf_ok {h : Hist} {f : Name → List V} {n : ℕ} {pre : Name} {pr : Bool} {o : Sel} (hh : ∀ p ∈ starProps, h p = some (f p))
    (hl : ∀ p ∈ starProps, (f p).length = n) (ho : (starSel pr o).Known starProps) :
    starDf pre pr o h = .ok ((keys starProps (starSel pr o)).map fun k => (pre ++ k, (f k).map nullify)) := by
  have hsub := keys_sub ho.1
  have hc := collect_ok (h := h) (f := f) (ps := keys starProps (starSel pr o)) fun p hp => hh p (hsub p hp)
  have hf : fillUp (fun _ => V.null) ((keys starProps (starSel pr o)).map fun p => (p, f p)) = (keys starProps (starSel pr o)).map fun p => (p, f p) := by
    apply fillUp_id (n := n)
    intro c hc
    obtain ⟨p, hp, rfl⟩ := List.mem_map.1 hc
    exact hl p (hsub p hp)
  have hnil : ((keys starProps (starSel pr o)).map fun p => (p, f p)) ≠ [] := by simpa using ho.2
  have he : starDf pre pr o h = match collect h (keys starProps (starSel pr o)) with
    | .error e => .error e
    | .ok [] => .error .value
    | .ok cols => .ok ((fillUp (fun _ => .null) cols).map fun c => (pre ++ c.1, c.2.map nullify)) := rfl
  rw [he, hc]
  split
  · rename_i e; simp at e
  · rename_i e; simp only [Except.ok.injEq] at e; exact absurd e hnil
  · rename_i cols _ e
    simp only [Except.ok.injEq] at e
    rw [← e, hf]
    simp

theorem params_append (w : Whose) (a b : Cols) : params w (a ++ b) = params w a ++ params w b := by
  simp [params, List.filterMap_append]

theorem params_own {cols : Cols} (h : ∀ c ∈ cols, c.1 ∈ ownNames) : params .b cols = cols ∧ params .s1 cols = [] ∧ params .s2 cols = [] := by
  induction cols with
  | nil => simp [params]
  | cons a l ih =>
    have h1 := own_parse a.1 (h a List.mem_cons_self)
    obtain ⟨i1, i2, i3⟩ := ih fun c hc => h c (List.mem_cons_of_mem _ hc)
    unfold params at i1 i2 i3 ⊢
    simp [h1, i1, i2, i3]

theorem params_s1 {ks : List Name} {f : Name → List V} (h : ∀ k ∈ ks, k ∈ starProps) :
    params .b (ks.map fun k => ((chars! "S1_") ++ k, f k)) = [] ∧
    params .s1 (ks.map fun k => ((chars! "S1_") ++ k, f k)) = ks.map (fun k => (k, f k)) ∧
    params .s2 (ks.map fun k => ((chars! "S1_") ++ k, f k)) = [] := by
  induction ks with
  | nil => simp [params]
  | cons a l ih =>
    have h1 := s1_parse a (h a List.mem_cons_self)
    obtain ⟨i1, i2, i3⟩ := ih fun c hc => h c (List.mem_cons_of_mem _ hc)
    unfold params at i1 i2 i3 ⊢
    simp only [List.map_cons, List.filterMap_cons, h1]
    exact ⟨i1, by simp only [if_true]; rw [i2], i3⟩

theorem params_s2 {ks : List Name} {f : Name → List V} (h : ∀ k ∈ ks, k ∈ starProps) :
    params .b (ks.map fun k => ((chars! "S2_") ++ k, f k)) = [] ∧
    params .s1 (ks.map fun k => ((chars! "S2_") ++ k, f k)) = [] ∧
    params .s2 (ks.map fun k => ((chars! "S2_") ++ k, f k)) = ks.map fun k => (k, f k) := by
  induction ks with
  | nil => simp [params]
  | cons a l ih =>
    have h1 := s2_parse a (h a List.mem_cons_self)
    obtain ⟨i1, i2, i3⟩ := ih fun c hc => h c (List.mem_cons_of_mem _ hc)
    unfold params at i1 i2 i3 ⊢
    simp only [List.map_cons, List.filterMap_cons, h1]
    exact ⟨i1, i2, by simp only [if_true]; rw [i3]⟩

theorem fromDf_ok {fp : V → V → V → V} {dS : Name → V} {g : Option ℕ} {t : Table} {n : ℕ} {nm : Name} (hn : 0 < n)
    (hl : ∀ c ∈ t.cols, c.2.length = n) (hne : t.cols ≠ []) (hi : t.idxName = some nm) :
    fromDf fp dS g t = .ok (build fp dS (if isIn (chars! "binary_index") nm && (g.getD 0 == 0) then some t.idx else g) t.cols n) := by
  obtain ⟨i, k, cols⟩ := t
  cases cols with
  | nil => exact absurd rfl hne
  | cons c0 rest =>
    have h0 : c0.2.length = n := hl c0 List.mem_cons_self
    have h1 : (rest.any fun c => c.2.length != c0.2.length) = false := by
      rw [List.any_eq_false]
      intro c hc
      have := hl c (List.mem_cons_of_mem _ hc)
      simp [this, h0]
    simp only at hi
    subst hi
    subst h0
    unfold fromDf
    dsimp only
    rw [h1, if_neg (by simp), if_neg (by omega)]

/-- What is written for a complete binary. -/
theorem toDf_ok {x : Binary} {n : ℕ} {fb f1 f2 : Name → List V} (h : Full x n fb f1 f2) {o o1 o2 : Sel} {pr : Bool}
    (ho : o.Known binaryProps) (hi : o.select = [] → (chars! "binary_index") ∉ o.ignore)
    (h1 : (starSel pr o1).Known starProps) (h2 : (starSel pr o2).Known starProps) :
    ∃ ext, toDf o o1 o2 pr x = .ok ⟨some (chars! "binary_index"), x.idx,
        (((keys binaryProps o).filter (· ∉ vectors)).map (fun k => (k, (fb k).map nullify)) ++ ext) ++
        ((keys starProps (starSel pr o1)).map fun k => ((chars! "S1_") ++ k, (f1 k).map nullify)) ++
        ((keys starProps (starSel pr o2)).map fun k => ((chars! "S2_") ++ k, (f2 k).map nullify))⟩ ∧
      (∀ c ∈ ext, c.1 ∈ three (chars! "V_sys") ++ three (chars! "NN_dist") ∧ c.2.length = n) := by
  obtain ⟨ext, he, hx⟩ := ownDf_ok h ho hi
  refine ⟨ext, ?_, hx⟩
  unfold toDf
  rw [he]
  dsimp only
  rw [starDf_ok h.s1 h.l1 h1, starDf_ok h.s2 h.l2 h2]

/-- What is read from it. -/
theorem read_ok {x : Binary} {n : ℕ} {fb f1 f2 : Name → List V} (h : Full x n fb f1 f2) {o o1 o2 : Sel} {pr : Bool}
    (ho : o.Known binaryProps) (hi : o.select = [] → (chars! "binary_index") ∉ o.ignore)
    (h1 : (starSel pr o1).Known starProps) (h2 : (starSel pr o2).Known starProps) (fp : V → V → V → V) (dS : Name → V) :
    ∃ t r ext, toDf o o1 o2 pr x = .ok t ∧ fromDf fp dS Option.none t = .ok r ∧ r.idx = some x.idx ∧
      r = build fp dS (some x.idx) t.cols n ∧
      params .b t.cols = ((keys binaryProps o).filter (· ∉ vectors)).map (fun k => (k, (fb k).map nullify)) ++ ext ∧
      (∀ c ∈ ext, c.1 ∈ three (chars! "V_sys") ++ three (chars! "NN_dist") ∧ c.2.length = n) ∧
      params .s1 t.cols = (keys starProps (starSel pr o1)).map (fun k => (k, (f1 k).map nullify)) ∧
      params .s2 t.cols = (keys starProps (starSel pr o2)).map (fun k => (k, (f2 k).map nullify)) := by
  obtain ⟨ext, he, hx⟩ := toDf_ok h ho hi h1 h2
  have hs := keys_sub ho.1
  have hs1 := keys_sub h1.1
  have hs2 := keys_sub h2.1
  have hlen : ∀ c ∈ (((keys binaryProps o).filter (· ∉ vectors)).map (fun k => (k, (fb k).map nullify)) ++ ext) ++
        ((keys starProps (starSel pr o1)).map fun k => ((chars! "S1_") ++ k, (f1 k).map nullify)) ++
        ((keys starProps (starSel pr o2)).map fun k => ((chars! "S2_") ++ k, (f2 k).map nullify)), c.2.length = n := by
    intro c hc
    rcases List.mem_append.1 hc with hc | hc
    · rcases List.mem_append.1 hc with hc | hc
      · rcases List.mem_append.1 hc with hc | hc
        · obtain ⟨k, hk, rfl⟩ := List.mem_map.1 hc
          rw [List.length_map]; exact h.lb k (hs k (List.mem_filter.1 hk).1)
        · exact (hx c hc).2
      · obtain ⟨k, hk, rfl⟩ := List.mem_map.1 hc
        rw [List.length_map]; exact h.l1 k (hs1 k hk)
    · obtain ⟨k, hk, rfl⟩ := List.mem_map.1 hc
      rw [List.length_map]; exact h.l2 k (hs2 k hk)
  have hown : ∀ c ∈ ((keys binaryProps o).filter (· ∉ vectors)).map (fun k => (k, (fb k).map nullify)) ++ ext, c.1 ∈ ownNames := by
    intro c hc
    rcases List.mem_append.1 hc with hc | hc
    · obtain ⟨k, hk, rfl⟩ := List.mem_map.1 hc
      exact List.mem_append_left _ (hs k (List.mem_filter.1 hk).1)
    · exact List.mem_append_right _ (hx c hc).1
  obtain ⟨a1, a2, a3⟩ := params_own hown
  obtain ⟨b1, b2, b3⟩ := params_s1 (f := fun k => (f1 k).map nullify) hs1
  obtain ⟨c1, c2, c3⟩ := params_s2 (f := fun k => (f2 k).map nullify) hs2
  have hr := fromDf_ok (fp := fp) (dS := dS) (g := Option.none) (t := ⟨some (chars! "binary_index"), x.idx, _⟩) h.pos hlen
    (by
      intro e
      have := h1.2
      simp at e
      exact this e.2.2.1) rfl
  refine ⟨_, _, ext, he, hr, ?_, ?_, ?_, hx, ?_, ?_⟩
  · show (if (isIn (chars! "binary_index") (chars! "binary_index") && ((Option.none : Option ℕ).getD 0 == 0)) = true then some x.idx else Option.none) = some x.idx
    rw [if_pos (by decide +kernel)]
  · rw [if_pos (by decide +kernel)]
  · simp only [params_append, a1, b1, c1, List.append_nil]
  · simp only [params_append, a2, b2, c2, List.append_nil, List.nil_append]
  · simp only [params_append, a3, b3, c3, List.append_nil, List.nil_append]

/-- Names of dictionaries are not changed by taking off `_history`. -/
theorem current_names {d : Cols} (h : ∀ c ∈ d, before (chars! "_history") (c.1 ++ (chars! "_history")) = c.1) :
    (d.map fun c => (before (chars! "_history") (c.1 ++ (chars! "_history")), c.2)) = d := by
  conv_rhs => rw [← List.map_id d]
  apply List.map_congr_left
  intro c hc
  rw [h c hc]; rfl

theorem getLast_nullify (l : List V) : (l.map nullify).getLast? = l.getLast?.map nullify := by simp

end Verif.Frame
