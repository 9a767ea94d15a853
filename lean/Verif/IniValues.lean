import Verif.Chars
import Mathlib.Algebra.Order.Field.Rat
import Mathlib.Data.Rat.Floor
import Mathlib.Data.List.Basic
import Mathlib.Data.List.Nodup
import Mathlib.Tactic.Common

/-!
# Values and sections of ini files

Model of `posydon/utils/configfile.py`: `parse_inifile` (l.231-299); and of `posydon/popsyn/io.py`: `parse_inifile` (l.370-399),
`simprop_kwargs_from_ini` (l.402-501) without the hooks (modelled in `SimProps`), `binarypop_kwargs_from_ini` (l.504-585).

Simplifications.  `ast.parse` and `json.loads` are given by their results.  Numbers are rationals.  Texts used with `%` have no
format specification.  The results of `ast.literal_eval` are given (or that it fails); the imported classes are identified by
the pair of location and name.  The numbers of the job from the environment are given.  Sections of a file have different names, and keys of a section
are different (otherwise `configparser` fails); entries of a default section are written in every section.
-/

namespace Verif.IniValues

abbrev Name := List Char

inductive Err where
  | value
  | key
  | type
  | zeroDivision
  | assertion
  | notFound
  | unsupported
  | attribute
deriving DecidableEq

/-! ### Expressions -/

inductive Op where
  | add | sub | mul | div | mod | other
deriving DecidableEq

inductive Value where
  | num (q : ℚ)
  | text (s : Name)
  | bool (b : Bool)
  | none
  | list (l : List Value)

/-- The tree of `ast.parse`; other nodes are among others names and signs. -/
inductive Expr where
  | num (q : ℚ)
  | str (s : Name)
  | const (v : Value)
  | bin (o : Op) (a b : Expr)
  | list (l : List Expr)
  | neg (a : Expr)
  | other

/-- The pieces between commas. -/
def parts : Name → List Name
  | [] => [[]]
  | c :: s =>
    if c = ',' then [] :: parts s
    else match parts s with
      | [] => [[c]]
      | p :: r => (c :: p) :: r

def noBlanks (s : Name) : Name := s.filter (· ≠ ' ')

/-- Numbers for arithmetic: truth values count as 0 and 1. -/
def Value.asNum : Value → Option ℚ
  | .num q => some q
  | .bool b => some (if b then 1 else 0)
  | _ => Option.none

/-- Python's `%` for numbers. -/
def pyMod (a b : ℚ) : ℚ := a - b * ⌊a / b⌋

/-- The operators of `binOps` (l.233-239); sums of texts and lists; other combinations are type errors (among them repetitions, which
are left out). -/
def apply (o : Op) (a b : Value) : Except Err Value :=
  match a.asNum, b.asNum with
  | some p, some q =>
    match o with
    | .add => .ok (.num (p + q))
    | .sub => .ok (.num (p - q))
    | .mul => .ok (.num (p * q))
    | .div => if q = 0 then .error .zeroDivision else .ok (.num (p / q))
    | .mod => if q = 0 then .error .zeroDivision else .ok (.num (pyMod p q))
    | .other => .error .key
  | _, _ =>
    match o, a, b with
    | .other, _, _ => .error .key
    | .add, .text s, .text t => .ok (.text (s ++ t))
    | .add, .list s, .list t => .ok (.list (s ++ t))
    | _, _, _ => .error .type

mutual
/-- `_eval`, l.245-265. -/
def eval : Expr → Except Err Value
  | .num q => .ok (.num q)
  | .str s => if ',' ∈ s then .ok (.list ((parts (noBlanks s)).map .text)) else .ok (.text s)
  | .const v => .ok v
  | .bin o a b =>
    if o = .other then .error .key
    else match eval a with
      | .error e => .error e
      | .ok x =>
        match eval b with
        | .error e => .error e
        | .ok y => apply o x y
  | .list l =>
    match evalList l with
    | .error e => .error e
    | .ok r => .ok (.list r)
  | .neg _ => .error .unsupported
  | .other => .error .unsupported

def evalList : List Expr → Except Err (List Value)
  | [] => .ok []
  | e :: r =>
    match eval e with
    | .error x => .error x
    | .ok v =>
      match evalList r with
      | .error x => .error x
      | .ok vs => .ok (v :: vs)
end

/-- An option with the results of the two parsers. -/
structure Opt where
  raw : Name
  ast : Option Expr
  json : Option Value

/-- The value of an option, l.281-292. -/
def Opt.value (o : Opt) : Value :=
  match o.ast.map eval with
  | some (.ok v) => v
  | _ =>
    match o.json with
    | some v => v
    | none => if ',' ∈ o.raw then .list ((parts (noBlanks o.raw)).map .text) else .text o.raw

/-- The four sections of the file (l.277-299), as dictionaries with keys in lower case; every section also has the default. -/
def fourSections : List Name := [(chars! "run_parameters"), (chars! "slurm"), (chars! "mesa_inlists"), (chars! "mesa_extras")]

abbrev Dict (V : Type) := List (Name × V)

def Dict.put {V : Type} : Dict V → Name → V → Dict V
  | [], k, v => [(k, v)]
  | (a, b) :: d, k, v => if a = k then (a, v) :: d else (a, b) :: Dict.put d k v

def Dict.get {V : Type} (d : Dict V) (k : Name) : Option V := d.lookup k

/-- `{**a, **b}`, and setting all entries of `b` in `a`. -/
def merge {V : Type} (a b : Dict V) : Dict V := b.foldl (fun d p => d.put p.1 p.2) a

def lower (s : Name) : Name := s.map Char.toLower

/-- The dictionary of a section with the default option of `MESA_DIR` (l.270-292). -/
def sectionDict (mesaDir : Opt) (opts : List (Name × Opt)) : Dict Value :=
  merge [] ((opts.map fun p => (lower p.1, p.2.value)) ++
    (if (chars! "mesa_dir") ∈ opts.map fun p => lower p.1 then [] else [((chars! "mesa_dir"), mesaDir.value)]))

/-- `parse_inifile`, l.231-299. -/
def parseIni (mesaDir : Option Opt) (secs : List (Name × List (Name × Opt))) : Except Err (List (Dict Value)) :=
  match mesaDir with
  | none => .error .key
  | some m => if fourSections.all fun s => (secs.lookup s).isSome then
      .ok (fourSections.map fun s => sectionDict m ((secs.lookup s).getD []))
    else .error .key

/-! ### The options of a population -/

/-- A result of `ast.literal_eval`. -/
inductive Lit where
  | bool (b : Bool)
  | none
  | num (q : ℚ)
  | atom (n : ℕ)
  | pair (a b : Name)
deriving DecidableEq

/-- Python's truth of a value; atoms are not empty. -/
def Lit.truthy : Lit → Bool
  | .bool b => b
  | .none => false
  | .num q => q ≠ 0
  | .atom _ => true
  | .pair _ _ => true

/-- `== True`. -/
def Lit.isTrue : Lit → Bool
  | .bool b => b
  | .num q => q = 1
  | _ => false

/-- A section: keys with their values, `none` if they are not literals. -/
abbrev Section := List (Name × Option Lit)

/-- `{key: ast.literal_eval(val)}` -/
def literals : Section → Except Err (Dict Lit)
  | [] => .ok []
  | (k, v) :: r =>
    match v, literals r with
    | some v, .ok d => .ok ((k, v) :: d)
    | none, _ => .error .value
    | _, .error e => .error e

/-- A value in the options of a population. -/
inductive PVal where
  | lit (l : Lit)
  | comm
  | dict (d : Dict Lit)
deriving DecidableEq

/-- `== True`. -/
def PVal.isTrue : PVal → Bool
  | .lit l => l.isTrue
  | _ => false

structure Env where
  job : Option (ℚ × ℚ × ℚ)

/-- The entries for the job, l.536-559. -/
def jobEntries (e : Env) (mpi : Bool) : Except Err (Dict PVal) :=
  if mpi && e.job.isSome then .error .value
  else if mpi then .ok [((chars! "comm"), .comm)]
  else match e.job with
    | some (j, r, s) => .ok [((chars! "comm"), .lit .none), ((chars! "JOB_ID"), .lit (.num j)), ((chars! "RANK"), .lit (.num r)),
        ((chars! "size"), .lit (.num s))]
    | none => .ok [((chars! "comm"), .lit .none), ((chars! "RANK"), .lit .none), ((chars! "size"), .lit .none)]

def popSec : Name := (chars! "BinaryPopulation_options")
def binSec : Name := (chars! "BinaryStar_output")
def s1Sec : Name := (chars! "SingleStar_1_output")
def s2Sec : Name := (chars! "SingleStar_2_output")

def lits (d : Dict Lit) : Dict PVal := d.map fun p => (p.1, .lit p.2)

/-- A section for a star, l.569-583. -/
def starSec (d : Dict PVal) (inc kw : Name) (s : Dict Lit) : Except Err (Dict PVal) :=
  match s.get inc with
  | none => .error .key
  | some v =>
    let d := d.put inc (.lit v)
    .ok (if v.truthy then d.put kw (.dict (s.filter fun p => p.1 ≠ inc)) else d)

/-- One section, l.530-583. -/
def popStep (e : Env) (d : Dict PVal) (sec : Name) (body : Section) : Except Err (Dict PVal) :=
  if sec = popSec then
    match literals body with
    | .error x => .error x
    | .ok l =>
      let d := merge d (lits l)
      match d.get (chars! "use_MPI") with
      | none => .error .key
      | some v =>
        match jobEntries e v.isTrue with
        | .error x => .error x
        | .ok j => .ok (merge d j)
  else if sec = binSec then
    match literals body with
    | .error x => .error x
    | .ok l => .ok (merge d (lits l))
  else if sec = s1Sec then
    match literals body with
    | .error x => .error x
    | .ok l => starSec d (chars! "include_S1") (chars! "S1_kwargs") l
  else if sec = s2Sec then
    match literals body with
    | .error x => .error x
    | .ok l => starSec d (chars! "include_S2") (chars! "S2_kwargs") l
  else .ok d

def popLoop (e : Env) : List (Name × Section) → Dict PVal → Except Err (Dict PVal)
  | [], d => .ok d
  | (n, b) :: r, d =>
    match popStep e d n b with
    | .error x => .error x
    | .ok d => popLoop e r d

/-- `binarypop_kwargs_from_ini`. -/
def popKwargs (e : Env) (secs : List (Name × Section)) : Except Err (Dict PVal) :=
  if [popSec, binSec, s1Sec, s2Sec].all fun s => (secs.map (·.1)).contains s then popLoop e secs [] else .error .assertion

/-! ### The properties of a simulation -/

/-- An entry of the result: a class with its options, or an option. -/
inductive SVal where
  | cls (location name : Name) (kwargs : Dict Lit)
  | lit (l : Lit)
deriving DecidableEq

/-- The options that are left after the location of the class is taken out. -/
def leftOver (l : Dict Lit) : Dict Lit :=
  if (l.get (chars! "import")).isSome then l.filter fun p => p.1 ≠ (chars! "import") ∧ p.1 ≠ (chars! "absolute_import") else l

/-- The class that is imported, l.447-466; `absolute` is `None` if it is not given. -/
def imported (relative absolute : Lit) (rest : Dict Lit) : Except Err SVal :=
  match absolute, relative with
  | .none, .pair a b => .ok (.cls a b rest)
  | .none, _ => .error .type
  | .pair a b, _ => .ok (.cls a b rest)
  | _, _ => .error .type

/-- The entry of the class, if the section has one. -/
def withClass (d : Dict SVal) (sec : Name) (l : Dict Lit) : Except Err (Dict SVal) :=
  match l.get (chars! "import") with
  | none => .ok d
  | some i =>
    match imported i ((l.get (chars! "absolute_import")).getD .none) (leftOver l) with
    | .error x => .error x
    | .ok v => .ok (d.put sec v)

def simLits (l : Dict Lit) : Dict SVal := l.map fun p => (p.1, .lit p.2)

/-- One section other than the hooks, l.436-466 and l.497-499. -/
def simStep (d : Dict SVal) (sec : Name) (body : Section) : Except Err (Dict SVal) :=
  match literals body with
  | .error x => .error x
  | .ok l =>
    match withClass d sec l with
    | .error x => .error x
    | .ok d => .ok (if sec = (chars! "grid_paths") then merge d (simLits (leftOver l)) else d)

def simLoop (only : Option Name) : List (Name × Section) → Dict SVal → Except Err (Dict SVal)
  | [], d => .ok d
  | (n, b) :: r, d =>
    if only.isSome ∧ only ≠ some n then simLoop only r d
    else match simStep d n b with
      | .error x => .error x
      | .ok d => simLoop only r d

/-- `simprop_kwargs_from_ini` for files without hooks. -/
def simKwargs (only : Option Name) (secs : List (Name × Section)) : Except Err (Dict SVal) := simLoop only secs []

/-! ### Reading of files -/

inductive Path where
  | one (s : Name)
  | many (l : List Name)
  | other

/-- `parse_inifile` of the populations, l.370-399: the files that are read; `exist` are the files there. -/
def readPaths (exist : List Name) : Path → Except Err (List Name)
  | .one s => if s ∈ exist then .ok [s] else .error .notFound
  | .many l => if l.all fun s => exist.contains s then (if l.isEmpty then .error .value else .ok l) else .error .notFound
  | .other => .error .value

/-! ### Helper lemmas -/

theorem get_put {V : Type} (d : Dict V) (k k' : Name) (v : V) :
    (d.put k v).get k' = if k' = k then some v else d.get k' := by
  induction d with
  | nil =>
    unfold Dict.put Dict.get
    by_cases h : k' = k
    · subst h; simp
    · simp [List.lookup, h, show (k' == k) = false by simpa using h]
  | cons p d ih =>
    obtain ⟨a, b⟩ := p
    unfold Dict.put
    by_cases ha : a = k
    · rw [if_pos ha]
      subst ha
      by_cases h : k' = a
      · subst h; simp [Dict.get]
      · simp [Dict.get, List.lookup, h, show (k' == a) = false by simpa using h]
    · rw [if_neg ha]
      unfold Dict.get at ih ⊢
      by_cases h : k' = a
      · subst h
        rw [if_neg ha]
        simp [List.lookup]
      · simp only [List.lookup, show (k' == a) = false by simpa using h]
        exact ih

theorem lookup_none_of {V : Type} {d : Dict V} {k : Name} (h : k ∉ d.map (·.1)) : d.lookup k = none := by
  rw [List.lookup_eq_none_iff]
  intro y hy
  simp only [bne_iff_ne, ne_eq]
  intro he
  exact h (List.mem_map.2 ⟨y, hy, he.symm⟩)

theorem get_merge {V : Type} (a b : Dict V) (hn : (b.map (·.1)).Nodup) (k : Name) :
    (merge a b).get k = (b.get k).or (a.get k) := by
  induction b generalizing a with
  | nil => simp [merge, Dict.get]
  | cons p b ih =>
    obtain ⟨x, v⟩ := p
    rw [List.map_cons, List.nodup_cons] at hn
    unfold merge
    rw [List.foldl_cons]
    show (merge (a.put x v) b).get k = _
    rw [ih _ hn.2, get_put]
    by_cases h : k = x
    · subst h
      have : b.lookup k = none := lookup_none_of hn.1
      simp [Dict.get, this]
    · have hb : (k == x) = false := by simpa using h
      simp [Dict.get, List.lookup, hb, h]

theorem parts_ne (s : Name) : parts s ≠ [] := by
  cases s with
  | nil => simp [parts]
  | cons c s =>
    unfold parts
    by_cases h : c = ','
    · rw [if_pos h]; simp
    · rw [if_neg h]
      cases parts s <;> simp

theorem literals_keys {s : Section} {l : Dict Lit} (h : literals s = .ok l) : l.map (·.1) = s.map (·.1) := by
  induction s generalizing l with
  | nil => cases h; rfl
  | cons p s ih =>
    obtain ⟨k, v⟩ := p
    unfold literals at h
    cases v with
    | none => cases h
    | some v =>
      cases hr : literals s with
      | error e => rw [hr] at h; cases h
      | ok d =>
        rw [hr] at h
        cases h
        simp [ih hr]

/-- All values of a section are literals, or reading it fails. -/
theorem literals_iff (s : Section) : (∃ l, literals s = .ok l) ↔ ∀ p ∈ s, p.2.isSome := by
  induction s with
  | nil => exact ⟨fun _ => by simp, fun _ => ⟨[], rfl⟩⟩
  | cons p s ih =>
    obtain ⟨k, v⟩ := p
    cases v with
    | none =>
      constructor
      · rintro ⟨l, h⟩; unfold literals at h; cases h
      · intro h; exact absurd (h (k, none) (by simp)) (by simp)
    | some v =>
      constructor
      · rintro ⟨l, h⟩
        unfold literals at h
        cases hr : literals s with
        | error e => rw [hr] at h; cases h
        | ok d =>
          intro q hq
          rcases List.mem_cons.1 hq with rfl | hq
          · rfl
          · exact ih.1 ⟨d, hr⟩ q hq
      · intro h
        obtain ⟨d, hd⟩ := ih.2 fun q hq => h q (by simp [hq])
        exact ⟨(k, v) :: d, by unfold literals; rw [hd]⟩

theorem get_lits (d : Dict Lit) (k : Name) : (lits d).get k = (d.get k).map .lit := by
  unfold lits Dict.get
  induction d with
  | nil => rfl
  | cons p d ih =>
    obtain ⟨a, b⟩ := p
    simp only [List.map_cons, List.lookup]
    by_cases h : k = a
    · subst h; simp
    · rw [show (k == a) = false by simpa using h]
      exact ih

theorem get_simLits (d : Dict Lit) (k : Name) : (simLits d).get k = (d.get k).map .lit := by
  unfold simLits Dict.get
  induction d with
  | nil => rfl
  | cons p d ih =>
    obtain ⟨a, b⟩ := p
    simp only [List.map_cons, List.lookup]
    by_cases h : k = a
    · subst h; simp
    · rw [show (k == a) = false by simpa using h]
      exact ih

theorem leftOver_nodup {l : Dict Lit} (h : (l.map (·.1)).Nodup) : ((leftOver l).map (·.1)).Nodup := by
  unfold leftOver
  by_cases hi : (l.get (chars! "import")).isSome
  · rw [if_pos hi]
    exact h.sublist (List.Sublist.map _ List.filter_sublist)
  · rw [if_neg hi]
    exact h

end Verif.IniValues
