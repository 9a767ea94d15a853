import Verif.Chars
import Verif.Frame
import Mathlib.Algebra.Order.Field.Rat
import Mathlib.Algebra.Order.Field.Basic
import Mathlib.Algebra.Order.Floor.Ring
import Mathlib.Data.Rat.Floor
import Mathlib.Data.List.Basic
import Mathlib.Data.List.Nodup
import Mathlib.Tactic.Common
import Mathlib.Tactic.Linarith
import Mathlib.Tactic.Positivity
import Mathlib.Tactic.Ring
import Mathlib.Tactic.FieldSimp

/-!
# Compressing the files of runs

Model of `posydon/utils/compress_mesa_files.py`: `textsize` (l.59-99), `set_up_test` (l.102-155), `get_size` (l.158-221) and
`compress_dir` (l.224-284).

Simplifications.  A tree of folders is the list of its folders in the order of `os.walk`, each with its whole path and its files;
links point to files.  The contents of a file are a number; the size of a compressed file is a parameter.  `gzip` refuses links and
files whose compressed name exists; a path with a character that the shell interprets does not reach it.  Files can always be
removed.  Sizes are rationals, the text of a size is its sign, quantity and unit.  The random choice of tracks is a parameter.
Printed messages are left out.
-/

namespace Verif.Compress

open Verif.Frame (isIn)

abbrev Name := List Char

inductive Err where
  | value
  | name
  | notADirectory
  | exists
deriving DecidableEq

/-! ### Names -/

/-- The characters after the last point. -/
def tail (p : Name) : Name := (p.reverse.takeWhile (· ≠ '.')).reverse

/-- `os.path.splitext` for a name without folders: leading points do not start an extension. -/
def splitext (p : Name) : Name × Name :=
  if '.' ∉ p then (p, [])
  else
    let stem := p.take (p.length - (tail p).length - 1)
    if stem.any (· ≠ '.') then (stem, '.' :: tail p) else (p, [])

/-- `os.path.basename`. -/
def basename (p : Name) : Name := (p.reverse.takeWhile (· ≠ '/')).reverse

def gz (n : Name) : Name := n ++ (chars! ".gz")

def marker : Name := (chars! "_grid_index_")

/-! ### Files and folders -/

structure File where
  name : Name
  link : Bool
  size : ℕ
  data : ℕ
deriving DecidableEq

structure Dir where
  path : Name
  files : List File
deriving DecidableEq

abbrev Tree := List Dir

def inRun (d : Dir) : Bool := isIn marker d.path

def isCore (n : Name) : Bool := (splitext n).1 == (chars! "core")

def isData (n : Name) : Bool :=
  !isCore n && decide ((splitext n).2 ∈ [(chars! ".data"), (chars! ".mod"), (chars! ".txt")])

/-- The files of the folders with runs that meet a condition, l.189-219. -/
def listed (p : Name → Bool) (t : Tree) : List (Name × List Name) :=
  (t.filter inRun).filterMap fun d =>
    let l := (d.files.filter fun f => p f.name).map (·.name)
    if l.isEmpty then none else some (d.path, l)

structure Sizes where
  total : ℕ
  remove : List (Name × List Name)
  compress : List (Name × List Name)
  runs : ℕ
  nRemove : ℕ
  nCompress : ℕ
deriving DecidableEq

/-- `get_size`. -/
def getSize (t : Tree) : Sizes :=
  { total := (t.map fun d => ((d.files.filter fun f => !f.link).map (·.size)).sum).sum
    remove := listed isCore t
    compress := listed isData t
    runs := (t.filter fun d => inRun d && isIn marker (basename d.path)).length
    nRemove := ((listed isCore t).map fun x => x.2.length).sum
    nCompress := ((listed isData t).map fun x => x.2.length).sum }

/-! ### Removing and compressing -/

/-- The files of one folder after removing some, l.247-257. -/
def removeAll (ns : List Name) (fs : List File) : List File :=
  ns.foldl (fun fs n => fs.filter fun f => f.name ≠ n) fs

/-- Characters that the shell interprets. -/
def special : List Char := [' ', '\t', '\n', '\'', '"', '\\', '$', '`', '&', ';', '|', '<', '>', '(', ')', '*', '?', '[', ']', '{', '}',
  '~', '#', '!']

def shellSafe (p : Name) : Bool := p.all fun c => !special.contains c

/-- Whether `gzip` compresses a file. -/
def accepts (dir : Name) (fs : List File) (n : Name) : Bool :=
  shellSafe (dir ++ ['/'] ++ n) && !(fs.map (·.name)).contains (gz n) && (fs.all fun f => f.name ≠ n || !f.link)

/-- A compressed file. -/
def zip (z : File → ℕ) (f : File) : File := { name := gz f.name, link := false, size := z f, data := f.data }

/-- Compressing one file, l.264-267. -/
def zip1 (z : File → ℕ) (dir : Name) (fs : List File) (n : Name) : List File :=
  if accepts dir fs n then fs.map fun f => if f.name = n then zip z f else f else fs

def zipAll (z : File → ℕ) (dir : Name) (ns : List Name) (fs : List File) : List File := ns.foldl (zip1 z dir) fs

/-- The loop over folders, l.246-257 and l.262-270. -/
def loop (act : Name → List Name → List File → List File) (l : List (Name × List Name)) (t : Tree) : Tree :=
  l.foldl (fun t x => t.map fun d => if d.path = x.1 then { d with files := act x.1 x.2 d.files } else d) t

/-- `compress_dir`, l.240-270: the new tree. -/
def compress (z : File → ℕ) (t : Tree) : Tree :=
  let s := getSize t
  loop (zipAll z) s.compress (loop (fun _ => removeAll) s.remove t)

/-- `compress_dir` with its first checks (l.235-238) and its warnings (l.279-284): files left to remove, files left to
compress. -/
def compressDir (z : File → ℕ) (t : Option (Option Tree)) : Except Err (Tree × Bool × Bool) :=
  match t with
  | none => .error .name
  | some none => .error .notADirectory
  | some (some t) =>
    let t' := compress z t
    .ok (t', !(getSize t').remove.isEmpty, !(getSize t').compress.isEmpty)

/-! ### Text of a size -/

/-- A text of a size: whether it is negative, a number, and the unit (`none` for "bytes"). -/
structure Txt where
  neg : Bool
  quantity : ℚ
  unit : Option ℕ
deriving DecidableEq

/-- The loop over the units, l.94-99, from unit `i` on with `k` units left. -/
def unitFrom (base : ℕ) (thr : ℚ) (q : ℚ) : ℕ → ℕ → ℚ × Option ℕ
  | _, 0 => (q, none)
  | i, k + 1 => if q < (base : ℚ) ^ i * thr then (q / (base : ℚ) ^ i, some i) else unitFrom base thr q (i + 1) k

/-- `textsize`: a negative size is that of its opposite with a sign. -/
def textsize (q : ℚ) (base : ℕ) (thr : ℚ) : Except Err Txt :=
  if base ∉ [1000, 1024] then .error .value
  else if thr ≤ 0 then .error .value
  else if (base : ℚ) < thr then .error .value
  else
    let r := unitFrom base thr |q| 0 9
    .ok { neg := decide (q < 0), quantity := r.1, unit := r.2 }

/-! ### A folder for tests -/

/-- One folder of the grid: its name, whether it is a folder, and the names in it. -/
structure Sub where
  name : Name
  isDir : Bool
  items : List Name

/-- `int(len(track_dirs) * dsr)` -/
def sampleSize (n : ℕ) (dsr : ℚ) : ℤ := if 0 ≤ (n : ℚ) * dsr then ⌊(n : ℚ) * dsr⌋ else ⌈(n : ℚ) * dsr⌉

/-- `set_up_test`, l.127-153: what is copied, for a given random choice. -/
def setUp (pick : ℕ → ℕ → List ℕ) (dsr : ℚ) : List Sub → List Name → Except Err (List (Name × List Name))
  | [], _ => .ok []
  | s :: r, existing =>
    if s.isDir && s.items.any (fun x => isIn marker x) then
      if s.name ∈ existing then .error .exists
      else if sampleSize s.items.length dsr < 0 ∨ (s.items.length : ℤ) < sampleSize s.items.length dsr then .error .value
      else
        match setUp pick dsr r (s.name :: existing) with
        | .error e => .error e
        | .ok l => .ok ((s.name, (pick s.items.length (sampleSize s.items.length dsr).toNat).filterMap (s.items[·]?)) :: l)
    else setUp pick dsr r existing

/-! ### Helper lemmas -/

theorem tail_gz (n : Name) : tail (gz n) = (chars! "gz") := by
  unfold tail gz
  rw [List.reverse_append]
  show (List.takeWhile _ ('z' :: 'g' :: '.' :: n.reverse)).reverse = _
  simp [List.takeWhile]

theorem splitext_gz {n : Name} (h : n.any (· ≠ '.') = true) : splitext (gz n) = (n, (chars! ".gz")) := by
  unfold splitext
  rw [if_neg (by simp [gz])]
  have : (gz n).take ((gz n).length - List.length (chars! "gz") - 1) = n := by
    simp [gz]
  simp only [tail_gz, this]
  rw [if_pos h]

theorem any_of_ext {n : Name} (h : (splitext n).2 ≠ []) : n.any (· ≠ '.') = true := by
  unfold splitext at h
  by_cases hd : '.' ∉ n
  · rw [if_pos hd] at h; exact absurd rfl h
  · rw [if_neg hd] at h
    simp only at h
    by_cases hs : (n.take (n.length - (tail n).length - 1)).any (· ≠ '.') = true
    · rw [List.any_eq_true] at hs ⊢
      obtain ⟨c, hc, h⟩ := hs
      exact ⟨c, List.mem_of_mem_take hc, h⟩
    · rw [if_neg hs] at h; exact absurd rfl h

/-- Compressed files are not compressed again, and they are not removed. -/
theorem gz_done {n : Name} (h : isData n = true) : isData (gz n) = false ∧ isCore (gz n) = false := by
  unfold isData at h
  rw [Bool.and_eq_true, decide_eq_true_eq] at h
  have hany : n.any (· ≠ '.') = true := by
    apply any_of_ext
    intro he
    rw [he] at h
    exact absurd h.2 (by decide)
  have e := splitext_gz hany
  have hne : n ≠ (chars! "core") := by
    rintro rfl
    exact absurd h.2 (by decide)
  constructor
  · unfold isData
    rw [e]
    rw [Bool.and_eq_false_iff]
    right
    exact decide_eq_false (by show ¬ (chars! ".gz") ∈ _; decide)
  · unfold isCore
    rw [e]
    simpa using hne

theorem gz_inj {a b : Name} (h : gz a = gz b) : a = b := by simpa [gz] using h

/-- What a loop does to a folder, given its entry in the list. -/
def actOn (act : Name → List Name → List File → List File) (d : Dir) : Option (List Name) → Dir
  | none => d
  | some ns => { d with files := act d.path ns d.files }

theorem loop_eq (act : Name → List Name → List File → List File) (l : List (Name × List Name)) (t : Tree)
    (hn : (l.map (·.1)).Nodup) :
    loop act l t = t.map fun d => actOn act d (l.lookup d.path) := by
  induction l generalizing t with
  | nil => simp [loop, actOn]
  | cons x l ih =>
    rw [List.map_cons, List.nodup_cons] at hn
    unfold loop
    rw [List.foldl_cons]
    show loop act l _ = _
    rw [ih _ hn.2, List.map_map]
    apply List.map_congr_left
    intro d _
    obtain ⟨p, ns⟩ := x
    simp only [Function.comp]
    by_cases hd : d.path = p
    · subst hd
      have hl : l.lookup d.path = none := by
        rw [List.lookup_eq_none_iff]
        intro y hy
        simp only [bne_iff_ne, ne_eq]
        intro he
        exact hn.1 (List.mem_map.2 ⟨y, hy, he.symm⟩)
      simp [List.lookup, hl, actOn]
    · have hb : (d.path == p) = false := by simpa using hd
      simp [hd, List.lookup, hb]

theorem listed_paths (p : Name → Bool) (t : Tree) (hn : (t.map (·.path)).Nodup) : ((listed p t).map (·.1)).Nodup := by
  have hs : ((listed p t).map (·.1)).Sublist (t.map (·.path)) := by
    unfold listed
    induction t with
    | nil => simp
    | cons d t ih =>
      have ih := ih (List.nodup_cons.1 (by simpa using hn)).2
      by_cases hr : inRun d
      · rw [List.filter_cons_of_pos hr, List.filterMap_cons]
        by_cases he : ((d.files.filter fun f => p f.name).map (·.name)).isEmpty = true
        · simp only [he, if_true]
          exact ih.cons _
        · simp only [he]
          exact ih.cons_cons _
      · rw [List.filter_cons_of_neg hr]
        exact ih.cons _
  exact hs.nodup hn

theorem listed_lookup (p : Name → Bool) (t : Tree) (hn : (t.map (·.path)).Nodup) (d : Dir) (hd : d ∈ t) :
    (listed p t).lookup d.path =
      if inRun d && (d.files.any fun f => p f.name) then some ((d.files.filter fun f => p f.name).map (·.name)) else none := by
  induction t with
  | nil => cases hd
  | cons e t ih =>
    have hn' : e.path ∉ t.map (·.path) ∧ (t.map (·.path)).Nodup := by simpa using hn
    have hcons : listed p (e :: t) = (if inRun e && (e.files.any fun f => p f.name) then
        [(e.path, (e.files.filter fun f => p f.name).map (·.name))] else []) ++ listed p t := by
      unfold listed
      by_cases hr : inRun e
      · rw [List.filter_cons_of_pos hr, List.filterMap_cons]
        by_cases ha : (e.files.any fun f => p f.name) = true
        · have he : ((e.files.filter fun f => p f.name).map (·.name)).isEmpty = false := by
            rw [List.any_eq_true] at ha
            obtain ⟨f, hf, hp⟩ := ha
            cases h : (e.files.filter fun f => p f.name) with
            | nil => exact absurd (List.mem_filter.2 ⟨hf, hp⟩) (by rw [h]; simp)
            | cons a b => rfl
          simp only [he, hr, ha]; rfl
        · have he : ((e.files.filter fun f => p f.name).map (·.name)).isEmpty = true := by
            rw [List.isEmpty_iff, List.map_eq_nil_iff, List.filter_eq_nil_iff]
            intro f hf hp
            exact ha (List.any_eq_true.2 ⟨f, hf, hp⟩)
          have ha' : (e.files.any fun f => p f.name) = false := by simpa using ha
          simp only [he, hr, ha']; rfl
      · rw [List.filter_cons_of_neg hr]
        have hr' : inRun e = false := by simpa using hr
        rw [hr']; rfl
    rw [hcons]
    rcases List.mem_cons.1 hd with rfl | hd
    · by_cases hc : (inRun d && (d.files.any fun f => p f.name)) = true
      · rw [if_pos hc, if_pos hc]
        simp
      · rw [if_neg hc, if_neg hc, List.nil_append, List.lookup_eq_none_iff]
        intro y hy
        simp only [bne_iff_ne, ne_eq]
        intro he
        unfold listed at hy
        rw [List.mem_filterMap] at hy
        obtain ⟨g, hg, hy⟩ := hy
        by_cases hemp : ((g.files.filter fun f => p f.name).map (·.name)).isEmpty = true
        · simp only [hemp, if_true] at hy; cases hy
        · simp only [hemp] at hy
          cases hy
          exact hn'.1 (List.mem_map.2 ⟨g, (List.mem_filter.1 hg).1, he.symm⟩)
    · have hne : (d.path == e.path) = false := by
        have : d.path ≠ e.path := fun h => hn'.1 (List.mem_map.2 ⟨d, hd, h⟩)
        simpa using this
      rw [← ih hn'.2 hd]
      by_cases hc : (inRun e && (e.files.any fun f => p f.name)) = true
      · rw [if_pos hc]
        simp [List.lookup, hne]
      · rw [if_neg hc]; rfl

theorem removeAll_eq (ns : List Name) (fs : List File) : removeAll ns fs = fs.filter fun f => !ns.contains f.name := by
  induction ns generalizing fs with
  | nil => simp [removeAll]
  | cons n ns ih =>
    unfold removeAll
    rw [List.foldl_cons]
    show removeAll ns _ = _
    rw [ih, List.filter_filter]
    apply List.filter_congr
    intro f _
    by_cases h1 : f.name = n <;> by_cases h2 : f.name ∈ ns <;> simp [h1, h2]

/-- The conditions under which all files of a list are compressed. -/
def Acceptable (dir : Name) (fs : List File) (n : Name) : Prop :=
  shellSafe (dir ++ ['/'] ++ n) = true ∧ gz n ∉ fs.map (·.name) ∧ ∀ f ∈ fs, f.name = n → f.link = false

theorem accepts_iff (dir : Name) (fs : List File) (n : Name) : accepts dir fs n = true ↔ Acceptable dir fs n := by
  unfold accepts Acceptable
  simp only [Bool.and_eq_true, Bool.not_eq_true', List.all_eq_true, Bool.or_eq_true, decide_eq_true_eq]
  constructor
  · rintro ⟨⟨h1, h2⟩, h3⟩
    refine ⟨h1, by simpa using h2, fun f hf hn => ?_⟩
    rcases h3 f hf with h | h
    · exact absurd hn h
    · exact h
  · rintro ⟨h1, h2, h3⟩
    refine ⟨⟨h1, by simpa using h2⟩, fun f hf => ?_⟩
    by_cases hn : f.name = n
    · right; exact h3 f hf hn
    · left; exact hn

theorem zipAll_eq (z : File → ℕ) (dir : Name) (ns : List Name) (fs : List File) (hnd : ns.Nodup)
    (hgz : ∀ a ∈ ns, gz a ∉ ns) (hacc : ∀ n ∈ ns, Acceptable dir fs n) :
    zipAll z dir ns fs = fs.map fun f => if f.name ∈ ns then zip z f else f := by
  induction ns generalizing fs with
  | nil => simp [zipAll]
  | cons n ns ih =>
    rw [List.nodup_cons] at hnd
    unfold zipAll
    rw [List.foldl_cons]
    show zipAll z dir ns _ = _
    have ha := hacc n (by simp)
    unfold zip1
    rw [if_pos ((accepts_iff dir fs n).2 ha), ih _ hnd.2 (fun a h h' => hgz a (by simp [h]) (by simp [h']))]
    · rw [List.map_map]
      apply List.map_congr_left
      intro f hf
      simp only [Function.comp]
      by_cases h1 : f.name = n
      · have h2 : gz n ∉ ns := fun h => hgz n (by simp) (by simp [h])
        have h3 : (zip z f).name ∉ ns := by
          show gz f.name ∉ ns
          rw [h1]; exact h2
        rw [if_pos h1, if_neg h3, if_pos (by simp [h1])]
      · rw [if_neg h1]
        by_cases h2 : f.name ∈ ns
        · rw [if_pos h2, if_pos (by simp [h2])]
        · rw [if_neg h2, if_neg (by simp [h1, h2])]
    · intro m hm
      obtain ⟨a1, a2, a3⟩ := hacc m (by simp [hm])
      have hmn : m ≠ n := by rintro rfl; exact hnd.1 hm
      refine ⟨a1, ?_, ?_⟩
      · intro h
        rw [List.map_map, List.mem_map] at h
        obtain ⟨f, hf, he⟩ := h
        simp only [Function.comp] at he
        by_cases h1 : f.name = n
        · rw [if_pos h1] at he
          have : gz f.name = gz m := he
          exact hmn (by rw [← gz_inj this, h1])
        · rw [if_neg h1] at he
          exact a2 (List.mem_map.2 ⟨f, hf, he⟩)
      · intro g hg hgm
        rw [List.mem_map] at hg
        obtain ⟨f, hf, rfl⟩ := hg
        by_cases h1 : f.name = n
        · rw [if_pos h1]; rfl
        · rw [if_neg h1] at hgm ⊢
          exact a3 f hf hgm

theorem unitFrom_spec (base : ℕ) (thr q : ℚ) (i k : ℕ) :
    (∃ j, i ≤ j ∧ j < i + k ∧ unitFrom base thr q i k = (q / (base : ℚ) ^ j, some j) ∧ q < (base : ℚ) ^ j * thr ∧
      ∀ m, i ≤ m → m < j → (base : ℚ) ^ m * thr ≤ q) ∨
    (unitFrom base thr q i k = (q, none) ∧ ∀ m, i ≤ m → m < i + k → (base : ℚ) ^ m * thr ≤ q) := by
  induction k generalizing i with
  | zero => right; exact ⟨rfl, by omega⟩
  | succ k ih =>
    unfold unitFrom
    by_cases h : q < (base : ℚ) ^ i * thr
    · left
      rw [if_pos h]
      exact ⟨i, le_refl _, by omega, rfl, h, by omega⟩
    · rw [if_neg h]
      rw [not_lt] at h
      rcases ih (i + 1) with ⟨j, h1, h2, h3, h4, h5⟩ | ⟨h1, h2⟩
      · left
        refine ⟨j, by omega, by omega, h3, h4, ?_⟩
        intro m hm hmj
        by_cases hi : m = i
        · rw [hi]; exact h
        · exact h5 m (by omega) hmj
      · right
        refine ⟨h1, ?_⟩
        intro m hm hmk
        by_cases hi : m = i
        · rw [hi]; exact h
        · exact h2 m (by omega) (by omega)

end Verif.Compress
