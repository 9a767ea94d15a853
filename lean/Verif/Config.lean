import Mathlib.Data.List.Basic
import Mathlib.Tactic.Common
/-!
Model of `ConfigFile` in `/repo/posydon/utils/configfile.py` l.100-228.

Simplifications: paths are natural numbers; a file is absent, contains a JSON dictionary, or contains something else.
JSON text is identified with the value it denotes (printing followed by parsing is the identity on JSON values), keys are
strings, and the order of keys within a dictionary (`sort_keys=True`) is kept as it is since it is not observable by key.
Writing itself does not fail.
-/
namespace Verif.Config

/-- Values which may be entries.  `ndarray` is a numpy array (as nested lists), `other` stands for any object which neither
the `json` module nor `_serialize` knows, e.g. a numpy integer. -/
inductive Val
  | null
  | bool (b : Bool)
  | num (n : Int)
  | str (s : String)
  | list (l : List Val)
  | dict (l : List (String × Val))
  | ndarray (l : List Val)
  | other (tag : ℕ)

mutual
/-- What `json.dump` writes for a value (l.119-122, 144-145): `_serialize` turns arrays into lists and returns `None`, written
as `null`, for everything else it is asked about. -/
def Val.written : Val → Val
  | .null => .null
  | .bool b => .bool b
  | .num n => .num n
  | .str s => .str s
  | .list l => .list (writtenList l)
  | .dict l => .dict (writtenDict l)
  | .ndarray l => .list (writtenList l)
  | .other _ => .null

def writtenList : List Val → List Val
  | [] => []
  | v :: vs => v.written :: writtenList vs

def writtenDict : List (String × Val) → List (String × Val)
  | [] => []
  | (k, v) :: vs => (k, v.written) :: writtenDict vs
end

/-- A Python dictionary with string keys. -/
abbrev Dict := List (String × Val)

def Dict.get (d : Dict) (k : String) : Option Val := List.lookup k d

/-- `d[k] = v`, l.198-200. -/
def Dict.set : Dict → String → Val → Dict
  | [], k, v => [(k, v)]
  | (k', v') :: d, k, v => if k = k' then (k, v) :: d else (k', v') :: Dict.set d k v

/-- `d.update(new)`, l.210-212. -/
def Dict.update (d new : Dict) : Dict := new.foldl (fun d kv => d.set kv.1 kv.2) d

/-- `del d[k]`. -/
def Dict.del (d : Dict) (k : String) : Dict := d.filter (fun kv => kv.1 ≠ k)

inductive File
  | absent
  | json (d : Dict)
  | broken

def File.exists : File → Bool
  | .absent => false
  | _ => true

inductive Err | noPath | permission | notFound | decode | key
  deriving DecidableEq, Repr

/-- The disk and one `ConfigFile` object. -/
structure St where
  disk : ℕ → File
  entries : Dict
  path : Option ℕ

inductive Op
  | set (k : String) (v : Val)
  | del (k : String)
  | update (d : Dict)
  | save (path : Option ℕ) (overwrite : Bool)
  | load (path : Option ℕ) (canUpdate : Bool)

/-- l.176-180: keys present on both sides. -/
def common (old new : Dict) : List String := (old.map Prod.fst).filter (· ∈ new.map Prod.fst)

def write (disk : ℕ → File) (p : ℕ) (f : File) : ℕ → File := fun q => if q = p then f else disk q

/-- `save`, l.124-145. -/
def save (s : St) (path : Option ℕ) (overwrite : Bool) : St × Option Err :=
  match path.or s.path with
  | none => (s, some .noPath)
  | some p =>
    if (s.disk p).exists && !overwrite then (s, some .permission)
    else ({ s with disk := write s.disk p (.json (writtenDict s.entries)) }, none)

/-- `load`, l.147-185. -/
def load (s : St) (path : Option ℕ) (canUpdate : Bool) : St × Option Err :=
  match path.or s.path with
  | none => (s, some .noPath)
  | some p =>
    match s.disk p with
    | .absent => (s, some .notFound)
    | .broken => (s, some .decode)
    | .json new =>
      if !canUpdate && (common s.entries new).length ≠ 0 then (s, some .permission)
      else ({ s with entries := s.entries.update new }, none)

/-- One call on the object: the state afterwards and the exception, if any. -/
def step (s : St) : Op → St × Option Err
  | .set k v => ({ s with entries := s.entries.set k v }, none)
  | .del k => if (s.entries.get k).isSome then ({ s with entries := s.entries.del k }, none) else (s, some .key)
  | .update d => ({ s with entries := s.entries.update d }, none)
  | .save p o => save s p o
  | .load p c => load s p c

/-- A session: exceptions are caught by the caller and the session goes on. -/
def run (s : St) : List Op → St
  | [] => s
  | o :: os => run (step s o).1 os

/-- `ConfigFile(path)`, l.103-109. -/
def init (disk : ℕ → File) (path : Option ℕ) : St × Option Err :=
  let s : St := ⟨disk, [], path⟩
  match path with
  | none => (s, none)
  | some p => if (disk p).exists then load s (some p) false else (s, none)

/-! ### Helper lemmas -/

theorem get_set (d : Dict) (k k' : String) (v : Val) :
    (d.set k v).get k' = if k' = k then some v else d.get k' := by
  induction d with
  | nil =>
    simp only [Dict.set, Dict.get, List.lookup]
    by_cases h : k' = k
    · simp [h]
    · have hb : (k' == k) = false := by simpa using h
      simp [h, hb]
  | cons a d ih =>
    obtain ⟨a, w⟩ := a
    unfold Dict.get at *
    by_cases h : k = a
    · subst h
      by_cases h' : k' = k
      · simp [Dict.set, List.lookup, h']
      · have hb : (k' == k) = false := by simpa using h'
        simp [Dict.set, List.lookup, h', hb]
    · by_cases h' : k' = a
      · subst h'
        have : ¬ k' = k := fun e => h e.symm
        simp [Dict.set, List.lookup, h, this]
      · have : (k' == a) = false := by simpa using h'
        simp only [Dict.set, if_neg h, List.lookup, this]
        exact ih

/-- Looking up a key of which several copies could be listed: `update` keeps the last. -/
theorem get_update (d new : Dict) (k : String) :
    (d.update new).get k = ((new.reverse.lookup k).or (d.get k)) := by
  induction new generalizing d with
  | nil => simp [Dict.update]
  | cons a new ih =>
    have := ih (d.set a.1 a.2)
    simp only [Dict.update, List.foldl_cons] at this ⊢
    rw [this, get_set, List.reverse_cons, List.lookup_append]
    cases new.reverse.lookup k with
    | some v => simp
    | none =>
      by_cases h : k = a.1
      · simp [List.lookup, h]
      · have : (k == a.1) = false := by simpa using h
        simp [List.lookup, h, this]

theorem lookup_none_of_notMem (d : Dict) (k : String) (h : k ∉ d.map Prod.fst) : List.lookup k d = none := by
  induction d with
  | nil => rfl
  | cons a d ih =>
    simp only [List.map_cons, List.mem_cons, not_or] at h
    have : (k == a.1) = false := by simpa using h.1
    simp [List.lookup, this, ih h.2]

theorem mem_of_lookup_some (d : Dict) (k : String) (v : Val) (h : List.lookup k d = some v) : k ∈ d.map Prod.fst := by
  by_contra hn
  rw [lookup_none_of_notMem d k hn] at h
  exact absurd h (by simp)

/-- For a dictionary (no key twice) the order is irrelevant. -/
theorem lookup_reverse (d : Dict) (hd : (d.map Prod.fst).Nodup) (k : String) :
    List.lookup k d.reverse = List.lookup k d := by
  induction d with
  | nil => rfl
  | cons a d ih =>
    simp only [List.map_cons, List.nodup_cons] at hd
    rw [List.reverse_cons, List.lookup_append, ih hd.2]
    by_cases h : k = a.1
    · subst h
      rw [lookup_none_of_notMem d _ hd.1]
      simp [List.lookup]
    · have : (k == a.1) = false := by simpa using h
      simp [List.lookup, this]

theorem writtenDict_keys (d : Dict) : (writtenDict d).map Prod.fst = d.map Prod.fst := by
  induction d with
  | nil => rfl
  | cons a d ih => obtain ⟨k, v⟩ := a; simp [writtenDict, ih]

theorem writtenDict_lookup (d : Dict) (k : String) :
    List.lookup k (writtenDict d) = (List.lookup k d).map Val.written := by
  induction d with
  | nil => rfl
  | cons a d ih =>
    obtain ⟨a, v⟩ := a
    by_cases h : k = a
    · simp [writtenDict, List.lookup, h]
    · have : (k == a) = false := by simpa using h
      simp [writtenDict, List.lookup, this, ih]

theorem common_eq_nil (old new : Dict) :
    (common old new).length = 0 ↔ ∀ k ∈ old.map Prod.fst, k ∉ new.map Prod.fst := by
  unfold common
  rw [List.length_eq_zero_iff, List.filter_eq_nil_iff]
  constructor
  · intro h k hk hn; exact h k hk (by simpa using hn)
  · intro h k hk hn; exact h k hk (by simpa using hn)

end Verif.Config
