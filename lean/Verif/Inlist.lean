import Verif.Jobs
import Verif.Channel
import Mathlib.Tactic.Common

/-!
# MESA inlists of a grid

Model of the reading of inlists (`/repo/posydon/utils/gridutils.py` l.436-484), of their layering and of the inlists
written for a grid (`/repo/bin/posydon-setup-grid` l.144-377 and l.379-865), and of the reading of those inlists when
a grid point is run (`/repo/bin/posydon-run-grid` l.845-877).

A file is its list of lines; opening a path is a parameter `files`.  A Python dictionary is the list of its entries in
order of insertion.
-/

namespace Verif.Inlist
open Verif.Jobs (cutAt isSpace strip dec)

abbrev Text := List Char

/-- What can be raised: the variable `current_key` without a value, a missing key, an index out of range, or a path
which cannot be opened. -/
inductive Err | unbound | key | index | file
  deriving DecidableEq, Repr

/-! ## Dictionaries -/

abbrev Dict (V : Type) := List (Text × V)

/-- `d[k] = v`: an existing key keeps its place. -/
def set {V : Type} (k : Text) (v : V) : Dict V → Dict V
  | [] => [(k, v)]
  | e :: d => if e.1 = k then (k, v) :: d else e :: set k v d

/-- `d.get(k)`. -/
def get {V : Type} (k : Text) : Dict V → Option V
  | [] => none
  | e :: d => if e.1 = k then some e.2 else get k d

/-! ## Reading a file (gridutils.py l.436-484) -/

/-- l.457: a line without the comment and the white space around. -/
def clean (l : Text) : Text := strip ((cutAt '!' (strip l)).headD [])

/-- l.459-460. -/
def keep (s : Text) : Bool := decide (s ≠ []) && (decide ('=' ∈ s) || decide ('&' ∈ s))

/-- `i.split('=', 1)[0].strip()`. -/
def name (s : Text) : Text := strip (s.takeWhile (· ≠ '='))

/-- `i.split('=', 1)[1].strip()`; the lines this is applied to contain the character. -/
def val (s : Text) : Text := strip ((s.dropWhile (· ≠ '=')).drop 1)

/-- l.471 and l.478: `in ["''", "'.'"]`. -/
def blank (v : Text) : Bool := decide (v = (chars! "''")) || decide (v = (chars! "'.'"))

/-- l.468-471: one line of a file without sections. -/
def assign (d : Dict Text) (s : Text) : Dict Text := if blank (val s) then d else set (name s) (val s) d

/-- l.464: `{k: {} for k in param_value_list if '&' in k}`. -/
def sections (ls : List Text) : Dict (Dict Text) := (ls.filter fun s => decide ('&' ∈ s)).foldl (fun d s => set s [] d) []

/-- l.475-480: the loop over the lines of a file with sections. -/
def walk : Option Text → Dict (Dict Text) → List Text → Except Err (Dict (Dict Text))
  | _, d, [] => .ok d
  | cur, d, s :: l =>
      if '&' ∈ s then walk (some s) d l
      else if blank (val s) = true then walk cur d l
      else match cur with
        | none => .error .unbound
        | some c => walk (some c) (set c (set (name s) (val s) ((get c d).getD [])) d) l

/-- `clean_inlist_file` (l.436-484). -/
def cleanFile (sec : Text) (lines : List Text) : Except Err (Dict (Dict Text)) :=
  let ls := (lines.map clean).filter keep
  if sections ls = [] then .ok [(sec, ls.foldl assign [])] else walk none (sections ls) ls

/-- `clean_inlist_file(v, section=section)[section]`. -/
def readSection (sec : Text) (lines : List Text) : Except Err (Dict Text) :=
  match cleanFile sec lines with
  | .error e => .error e
  | .ok d =>
      match get sec d with
      | none => .error .key
      | some x => .ok x

/-! ## Layering (posydon-setup-grid l.420-486) -/

/-- The six dictionaries which are filled. -/
inductive Target | binControls | binJob | star1Job | star2Job | star1Controls | star2Controls
  deriving DecidableEq, Repr

/-- The dictionary an entry of the ini file is for (l.430-475: the order of the tests). -/
def target (k : Text) : Option Target :=
  if (chars! "binary_controls") <:+: k then some .binControls
  else if (chars! "binary_job") <:+: k then some .binJob
  else if (chars! "star1_job") <:+: k then some .star1Job
  else if (chars! "star2_job") <:+: k then some .star2Job
  else if (chars! "star1_controls") <:+: k then some .star1Controls
  else if (chars! "star2_controls") <:+: k then some .star2Controls
  else none

/-- The section read for it. -/
def Target.section : Target → Text
  | .binControls => (chars! "&binary_controls")
  | .binJob => (chars! "&binary_job")
  | .star1Job => (chars! "&star_job")
  | .star2Job => (chars! "&star_job")
  | .star1Controls => (chars! "&controls")
  | .star2Controls => (chars! "&controls")

/-- Whether `num_x_ctrls` is replaced (l.468, l.481). -/
def Target.controls : Target → Bool
  | .star1Controls => true
  | .star2Controls => true
  | _ => false

/-- l.435: the parameters which are not taken over. -/
def skip (k : Text) : Bool := decide ((chars! "read_extra") <:+: k) || decide ((chars! "inlist") <:+: k)

/-- l.468-473. -/
def rename (ctrl : Bool) (k : Text) : Text :=
  if ctrl = true ∧ (chars! "num_x_ctrls") <:+: k then Verif.Channel.repl (chars! "num_x_ctrls") (chars! "1") 0 k else k

/-- l.433-436: one file on top of those before. -/
def layer (ctrl : Bool) (fin : Dict Text) (d : Dict Text) : Dict Text :=
  d.foldl (fun f e => if skip e.1 then f else set (rename ctrl e.1) e.2 f) fin

/-- A value of the section `mesa_inlists` of the ini file. -/
inductive Val
  | none
  | path (p : Text)
  | paths (l : List Text)
  | other
  deriving DecidableEq, Repr

/-- Opening a value as a file (`open` refuses a list). -/
def openVal (files : Text → Except Err (List Text)) : Val → Except Err (List Text)
  | .path p => files p
  | _ => .error .file

abbrev Finals := Target → Dict Text

def upd (F : Finals) (t : Target) (d : Dict Text) : Finals := fun u => if u = t then d else F u

/-- l.428-486: the loop over the entries of the ini file. -/
def layers (files : Text → Except Err (List Text)) : Finals → Dict Val → Except Err Finals
  | F, [] => .ok F
  | F, (k, v) :: l =>
      match v, target k with
      | .none, _ => layers files F l
      | _, none => layers files F l
      | v, some t =>
          match openVal files v with
          | .error e => .error e
          | .ok lines =>
              match readSection t.section lines with
              | .error e => .error e
              | .ok d => layers files (upd F t (layer t.controls (F t) d)) l

/-- l.489-501 and l.860-877 of posydon-run-grid: the columns of the grid which are parameters of a dictionary. -/
def columnsIn (cols : List Text) (d : Dict Text) : List Text := cols.filter fun c => (get c d).isSome

/-- l.506-520: the extra inlists of the stars. -/
def switch (cols : List Text) (F : Finals) : Finals := fun t =>
  match t with
  | .star1Controls =>
      if columnsIn cols (F t) ≠ [] then
        set (chars! "extra_controls_inlist1_name") (chars! "'inlist_grid_star1_binary_controls'")
          (set (chars! "read_extra_controls_inlist1") (chars! ".true.") (F t))
      else F t
  | .star2Controls =>
      if columnsIn cols (F t) ≠ [] then
        set (chars! "extra_controls_inlist1_name") (chars! "'inlist_grid_star2_binary_controls'")
          (set (chars! "read_extra_controls_inlist1") (chars! ".true.") (F t))
      else F t
  | .star1Job =>
      if columnsIn cols (F t) ≠ [] then
        set (chars! "extra_star_job_inlist1_name") (chars! "'inlist_grid_star1_binary_job'")
          (set (chars! "read_extra_star_job_inlist1") (chars! ".true.") (F t))
      else F t
  | .star2Job =>
      if columnsIn cols (F t) ≠ [] then
        set (chars! "extra_star_job_inlist1_name") (chars! "'inlist_grid_star2_binary_job'")
          (set (chars! "read_extra_star_job_inlist1") (chars! ".true.") (F t))
      else F t
  | _ => F t

/-- `"'{0}'".format(s)`. -/
def quote (s : Text) : Text := '\'' :: (s ++ ['\''])

/-- l.523-524; `inlist1`, `inlist2` are the paths of the inlists of the stars. -/
def inlistNames (inlist1 inlist2 : Text) (F : Finals) : Finals :=
  upd F .binJob (set (chars! "inlist_names(2)") (quote inlist2) (set (chars! "inlist_names(1)") (quote inlist1) (F .binJob)))

/-! ## Formation of the stars (l.531-638, l.645-743) -/

/-- l.549-552: the number of steps. -/
def stepCount (entries : Dict Val) : ℕ :=
  entries.foldl (fun n e => match e.2 with | .paths l => max n l.length | _ => n) 1

/-- l.558: the file of an entry in a step. -/
def ofStep (step : ℕ) : Val → Except Err Val
  | .paths l => match l[step]? with | some p => .ok (.path p) | none => .error .index
  | v => .ok v

/-- l.557-558. -/
def stepEntries (step : ℕ) : Dict Val → Except Err (Dict Val)
  | [] => .ok []
  | (k, v) :: l =>
      match ofStep step v with
      | .error e => .error e
      | .ok w => match stepEntries step l with | .error e => .error e | .ok r => .ok ((k, w) :: r)

/-- The names by which the files of a step are recognised (l.566, l.579; l.677, l.690). -/
structure Kind where
  ctrl : Text → Bool
  job : Text → Bool

/-- l.565-585: the layers of one step. -/
def stepLayers (files : Text → Except Err (List Text)) (kd : Kind) : Dict Text × Dict Text → Dict Val → Except Err (Dict Text × Dict Text)
  | F, [] => .ok F
  | F, (k, v) :: l =>
      match (if kd.ctrl k = true then
              match openVal files v with
              | .error e => Except.error e
              | .ok lines => match readSection (chars! "&controls") lines with | .error e => .error e | .ok d => .ok (layer true F.1 d)
            else .ok F.1) with
      | .error e => .error e
      | .ok c =>
          match (if kd.job k = true then
              match openVal files v with
              | .error e => Except.error e
              | .ok lines => match readSection (chars! "&star_job") lines with | .error e => .error e | .ok d => .ok (layer false F.2 d)
            else .ok F.2) with
          | .error e => .error e
          | .ok j => stepLayers files kd (c, j) l

/-- `"'initial_star1_step{0}.mod'".format(step)`. -/
def modName (star : Text) (step : ℕ) : Text := (chars! "'initial_") ++ star ++ (chars! "_step") ++ dec step ++ (chars! ".mod'")

/-- l.589-591: the job of the star in the binary. -/
def binaryLoads (star : Text) (step : ℕ) (d : Dict Text) : Dict Text :=
  set (chars! "saved_model_name") (modName star step)
    (set (chars! "load_saved_model") (chars! ".true.") (set (chars! "create_pre_main_sequence_model") (chars! ".false.") d))

/-- l.596-604: the job of a step. -/
def stepJob (star : Text) (step : ℕ) (d : Dict Text) : Dict Text :=
  if step = 0 then
    set (chars! "save_model_filename") (modName star step) (set (chars! "save_model_when_terminate") (chars! ".true.") d)
  else
    set (chars! "save_model_filename") (modName star step) (set (chars! "save_model_when_terminate") (chars! ".true.")
      (set (chars! "saved_model_name") (modName star (step - 1)) (set (chars! "load_saved_model") (chars! ".true.")
        (set (chars! "create_pre_main_sequence_model") (chars! ".false.") d))))

/-- `d.pop(k, None)`. -/
def pop {V : Type} (k : Text) (d : Dict V) : Dict V := d.filter fun e => decide (e.1 ≠ k)

/-- l.606-609: the file with models on the zero-age main sequence (only star 1). -/
def stepZams (single : Bool) (zams : Option Text) (d : Dict Text) : Dict Text :=
  match zams, single with
  | some z, true => set (chars! "zams_filename") (quote z) d
  | none, true => if (get (chars! "zams_filename_1") d).isSome then pop (chars! "zams_filename") d else d
  | _, false => d

/-- l.561-609: the controls and the job of one step. -/
def oneStep (files : Text → Except Err (List Text)) (kd : Kind) (star : Text) (zfix : Dict Text → Dict Text) (entries : Dict Val) (step : ℕ) :
    Except Err (Dict Text × Dict Text) :=
  match stepEntries step entries with
  | .error e => .error e
  | .ok es =>
      match stepLayers files kd ([], []) es with
      | .error e => .error e
      | .ok (c, j) => .ok (zfix c, stepJob star step j)

/-- Several steps, first the number of the first of them. -/
def manySteps (f : ℕ → Except Err (Dict Text × Dict Text)) : ℕ → ℕ → Except Err (List (Dict Text × Dict Text))
  | _, 0 => .ok []
  | i, n + 1 =>
      match f i with
      | .error e => .error e
      | .ok r => match manySteps f (i + 1) n with | .error e => .error e | .ok rs => .ok (r :: rs)

/-- l.544-638 resp. l.656-743: the steps of a star and the job of the star in the binary.  (In the code all lists are
first cut into steps, l.554-558, then the files are read; the order decides only which error is reported.) -/
def formation (files : Text → Except Err (List Text)) (kd : Kind) (star : Text) (zfix : Dict Text → Dict Text) (entries : Dict Val)
    (job : Dict Text) : Except Err (List (Dict Text × Dict Text) × Dict Text) :=
  if entries = [] then .ok ([], job)
  else
    match manySteps (oneStep files kd star zfix entries) 0 (stepCount entries) with
    | .error e => .error e
    | .ok steps => .ok (steps, (List.range (stepCount entries)).foldl (fun d i => binaryLoads star i d) job)

/-! ## The whole (l.379-865) -/

/-- The settings of the ini file which are not inlists; `zams1`, `zams2` after l.395-403. -/
structure Cfg where
  single : Bool
  zams1 : Option Text
  zams2 : Option Text
  profile1 : Bool
  profile2 : Bool
  model1 : Bool
  model2 : Bool
  history1 : Bool
  history2 : Bool
  binaryHistory : Bool
  interval : Text

/-- l.531-541 and l.566, l.579. -/
def kind1 : Kind :=
  ⟨fun k => decide ((chars! "star1_formation_controls") <:+: k) || decide ((chars! "star1_controls") <:+: k),
   fun k => decide ((chars! "star1_formation_job") <:+: k) || decide ((chars! "star1_job") <:+: k)⟩

def kind2 : Kind := ⟨fun k => decide ((chars! "star2_formation_controls") <:+: k), fun k => decide ((chars! "star2_formation_job") <:+: k)⟩

/-- l.535-541. -/
def entries1 (c : Cfg) (inl : Dict Val) : Dict Val :=
  if c.zams1.isSome = true ∧ c.single = false then []
  else if c.single = true then
    inl.filter fun e => (decide ((chars! "star1_job") <:+: e.1) || decide ((chars! "star1_controls") <:+: e.1)) && decide (e.2 ≠ .none)
  else inl.filter fun e => decide ((chars! "star1_formation") <:+: e.1) && decide (e.2 ≠ .none)

/-- l.649-653. -/
def entries2 (c : Cfg) (inl : Dict Val) : Dict Val :=
  if c.zams2.isSome = true then []
  else inl.filter fun e => decide ((chars! "star2_formation") <:+: e.1) && decide (e.2 ≠ .none)

/-- l.748-770: the job of a star in the binary. -/
def outJob (star : Text) (profile model : Bool) (d : Dict Text) : Dict Text :=
  let d := if profile then
      set (chars! "filename_for_profile_when_terminate") ((chars! "'final_profile_") ++ star ++ (chars! ".data'"))
        (set (chars! "write_profile_when_terminate") (chars! ".true.") d)
    else set (chars! "write_profile_when_terminate") (chars! ".false.") d
  if model then
    set (chars! "save_model_filename") ((chars! "'final_") ++ star ++ (chars! ".mod'"))
      (set (chars! "save_model_when_terminate") (chars! ".true.") d)
  else set (chars! "save_model_when_terminate") (chars! ".false.") d

/-- l.772-793: the controls of a star in the binary. -/
def outControls (history : Bool) (interval : Text) (zams : Option Text) (d : Dict Text) : Dict Text :=
  let d := set (chars! "history_interval") interval (set (chars! "do_history_file") (if history then (chars! ".true.") else (chars! ".false.")) d)
  match zams with
  | some z => set (chars! "zams_filename") (quote z) d
  | none => d

/-- l.748-793. -/
def outputs (c : Cfg) (F : Finals) : Finals := fun t =>
  match t with
  | .binControls =>
      let d := set (chars! "history_interval") c.interval (F t)
      if c.binaryHistory then d else set (chars! "history_interval") (chars! "-1") d
  | .binJob => F t
  | .star1Job => outJob (chars! "star1") c.profile1 c.model1 (F t)
  | .star2Job => outJob (chars! "star2") c.profile2 c.model2 (F t)
  | .star1Controls => outControls c.history1 c.interval c.zams1 (F t)
  | .star2Controls => outControls c.history2 c.interval c.zams2 (F t)

structure Out where
  steps1 : List (Dict Text × Dict Text)
  steps2 : List (Dict Text × Dict Text)
  fin : Finals

/-- l.427-524. -/
def binaryPart (files : Text → Except Err (List Text)) (c : Cfg) (inl : Dict Val) (cols : List Text) (inlist1 inlist2 : Text) : Except Err Finals :=
  if c.single then .ok fun _ => []
  else
    match layers files (fun _ => []) inl with
    | .error e => .error e
    | .ok F => .ok (inlistNames inlist1 inlist2 (switch cols F))

/-- `construct_static_inlist` (l.379-865) up to the writing of the files. -/
def construct (files : Text → Except Err (List Text)) (c : Cfg) (inl : Dict Val) (cols : List Text) (inlist1 inlist2 : Text) : Except Err Out :=
  match binaryPart files c inl cols inlist1 inlist2 with
  | .error e => .error e
  | .ok F =>
      match formation files kind1 (chars! "star1") (stepZams c.single c.zams1) (entries1 c inl) (F .star1Job) with
      | .error e => .error e
      | .ok (s1, j1) =>
          match formation files kind2 (chars! "star2") id (entries2 c inl) (F .star2Job) with
          | .error e => .error e
          | .ok (s2, j2) => .ok ⟨s1, s2, outputs c (upd (upd F .star1Job j1) .star2Job j2)⟩

/-- One line written, `'\t{0} = {1}\n'` (l.618, l.629, l.805, ...). -/
def lineOf (e : Text × Text) : Text := '\t' :: (e.1 ++ ' ' :: '=' :: ' ' :: (e.2 ++ ['\n']))

/-- The lines of a file with two sections (l.802-817, l.821-840, l.844-863); `foot1`, `foot2` are the lines which end
the two sections. -/
def render (sec1 sec2 : Text) (foot1 foot2 : List Text) (d1 d2 : Dict Text) : List Text :=
  [sec1 ++ ['\n'], ['\n']] ++ d1.map lineOf ++ foot1 ++ [sec2 ++ ['\n'], ['\n']] ++ d2.map lineOf ++ foot2

/-- The lines of l.803-817. -/
def projectFile (F : Finals) : List Text :=
  render (chars! "&binary_controls") (chars! "&binary_job")
    [['\n'], (chars! "/ ! end of binary_controls namelist") ++ ['\n'], ['\n']]
    [['\n'], (chars! "/ ! end of binary_job namelist") ++ ['\n'], (chars! "                ")] (F .binControls) (F .binJob)

/-- The lines of l.822-840. -/
def star1File (F : Finals) : List Text :=
  render (chars! "&controls") (chars! "&star_job")
    [['\n'], ['\n'], ['\n'], (chars! "/ ! end of star1_controls namelist") ++ ['\n'], ['\n']]
    [['\n'], (chars! "/ ! end of star1_job namelist") ++ ['\n'], ['\n']] (F .star1Controls) (F .star1Job)

/-- The lines of l.845-863. -/
def star2File (F : Finals) : List Text :=
  render (chars! "&controls") (chars! "&star_job")
    [['\n'], ['\n'], ['\n'], (chars! "/ ! end of star2_controls namelist") ++ ['\n'], ['\n']]
    [['\n'], (chars! "/ ! end of star2_job namelist") ++ ['\n'], ['\n']] (F .star2Controls) (F .star2Job)

/-- `/repo/bin/posydon-run-grid` l.845-854: the six dictionaries read back from the three files. -/
def readBack (F : Finals) : Target → Except Err (Dict Text)
  | .binControls => readSection (chars! "&binary_controls") (projectFile F)
  | .binJob => readSection (chars! "&binary_job") (projectFile F)
  | .star1Controls => readSection (chars! "&controls") (star1File F)
  | .star1Job => readSection (chars! "&star_job") (star1File F)
  | .star2Controls => readSection (chars! "&controls") (star2File F)
  | .star2Job => readSection (chars! "&star_job") (star2File F)

/-! ## Scenarios (posydon-setup-grid l.144-377) -/

/-- l.188-193: the common inlists; `common` is their directory. -/
def commonLayers (common : Text) (inl : Dict Val) : Dict Val :=
  let p1 := Val.path (common ++ (chars! "/binary/inlist1"))
  let p2 := Val.path (common ++ (chars! "/binary/inlist2"))
  let pp := Val.path (common ++ (chars! "/binary/inlist_project"))
  set (chars! "binary_job_posydon_defaults") pp (set (chars! "binary_controls_posydon_defaults") pp
    (set (chars! "star2_job_posydon_defaults") p2 (set (chars! "star2_controls_posydon_defaults") p2
      (set (chars! "star1_job_posydon_defaults") p1 (set (chars! "star1_controls_posydon_defaults") p1 inl)))))

/-- l.315-372: the extra layer of a grid of single stars; the file written has the path `special`. -/
def singleLayers (system special : Text) (steps : List Text) (inl : Dict Val) : Except Err (Dict Val) :=
  if system = (chars! "HMS-HMS") then .ok (set (chars! "star1_controls_special") (.path special) inl)
  else if system = (chars! "CO-He_star") then
    let inl := set (chars! "star1_job_user") (.paths steps) (set (chars! "star1_controls_user") (.paths steps)
      (set (chars! "zams_filename_2") .none inl))
    match get (chars! "star1_controls_special") inl with
    | none => .error .key
    | some (.paths l) => .ok (set (chars! "star1_controls_special") (.paths (l ++ [special])) inl)
    | some _ => .error .file
  else .ok inl

/-! ## Specification -/

/-- One line of a file: the start of a section, an assignment with the texts left and right of the sign, or anything
else; each with an optional comment. -/
inductive Item
  | head (s : Text)
  | put (a b : Text)
  | other (s : Text)
  deriving DecidableEq, Repr

structure Line where
  item : Item
  note : Option Text
  deriving DecidableEq, Repr

def Item.body : Item → Text
  | .head s => s
  | .put a b => a ++ '=' :: b
  | .other s => s

def Line.text (l : Line) : Text :=
  match l.note with
  | none => l.item.body
  | some c => l.item.body ++ '!' :: c

/-- The characters which have a meaning stand where they have it. -/
def Item.Ok : Item → Prop
  | .head s => '&' ∈ s ∧ '!' ∉ s
  | .put a b => '=' ∉ a ∧ '!' ∉ a ∧ '&' ∉ a ∧ '!' ∉ b ∧ '&' ∉ b
  | .other s => '=' ∉ s ∧ '&' ∉ s ∧ '!' ∉ s

instance (i : Item) : Decidable i.Ok := by cases i <;> unfold Item.Ok <;> infer_instance

/-- All the assignments. -/
def assignments (items : List Item) : List (Text × Text) :=
  items.filterMap fun | .put a b => some (strip a, strip b) | _ => none

/-- The assignments which stand in a section, `cur` being the section at the start. -/
def inSection (sec : Text) : Option Text → List Item → List (Text × Text)
  | _, [] => []
  | _, .head s :: l => inSection sec (some (strip s)) l
  | cur, .put a b :: l => if cur = some sec then (strip a, strip b) :: inSection sec cur l else inSection sec cur l
  | cur, .other _ :: l => inSection sec cur l

def Item.isHead : Item → Bool
  | .head _ => true
  | _ => false

/-- What a file told about a section; a file without sections is about the section asked for. -/
def told (sec : Text) (items : List Item) : List (Text × Text) :=
  if items.any Item.isHead = true then inSection sec none items else assignments items

/-- Empty texts as values count as no assignment. -/
def full (l : List (Text × Text)) : List (Text × Text) := l.filter fun e => !blank e.2

/-- The last value given to a parameter. -/
def last (p : Text) (l : List (Text × Text)) : Option Text := ((l.filter fun e => decide (e.1 = p)).getLast?).map (·.2)

/-- A section is usable in a file: the file has no sections, or it has that one and no assignment stands before the
first section. -/
def Usable (sec : Text) (items : List Item) : Prop :=
  items.any Item.isHead = false ∨
    ((∃ s, .head s ∈ items ∧ strip s = sec) ∧
      ∀ pre a b post, items = pre ++ .put a b :: post → blank (strip b) = false → pre.any Item.isHead = true)

/-- The assignments to the parameters of a dictionary by a list of entries of the ini file: those of the files in order. -/
def assigned (docs : Text → Option (List Line)) (t : Target) (inl : Dict Val) : List (Text × Text) :=
  inl.flatMap fun e =>
    match e.2 with
    | .path p =>
        if target e.1 = some t then
          ((full (told t.section (((docs p).getD []).map (·.item)))).filter fun a => !skip a.1).map fun a => (rename t.controls a.1, a.2)
        else []
    | _ => []

end Verif.Inlist
