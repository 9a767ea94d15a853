import Verif.Chars
import Verif.Jobs

/-!
The version of the active-learning package, `/repo/posydon/active_learning/psy_cris/_version.py`: what git
prints about the checkout is cut into pieces, the pieces are rendered in one of six styles, and when git cannot
be asked other sources are tried.

Simplifications.  What the git commands print is a parameter (`none` for a command that could not be run or that
failed).  Digits are the ten ASCII ones.  Printed diagnostics are left out (`cfg.verbose` is false).  A set of
references is a list; it is sorted before a reference is chosen, so repetitions and order do not matter.
-/
namespace Verif.Version

open Verif.Jobs (Text dec starts strip digitsVal cutAt)

/-- What may be raised: `NotThisMethod`, which `get_versions` catches, and three that it does not. -/
inductive Err where
  | notThisMethod | attributeError | typeError | valueError | keyError
deriving DecidableEq, Repr

/-- The characters of `[0-9a-f]`, l.271. -/
def isHex (c : Char) : Bool := c.isDigit || ('a' ≤ c && c ≤ 'f')

/-- `re.search(r'^(.+)-(\d+)-g([0-9a-f]+)$', s)`, l.271: the three groups.  Read from the end: neither the
hexadecimal digits nor the decimal ones contain the separators, so each run is as long as it can be. -/
def groups (s : Text) : Option (Text × Text × Text) :=
  let r := s.reverse
  let h := r.takeWhile isHex
  match r.dropWhile isHex with
  | 'g' :: '-' :: r₁ =>
    let d := r₁.takeWhile Char.isDigit
    match r₁.dropWhile Char.isDigit with
    | '-' :: t => if h ≠ [] ∧ d ≠ [] ∧ t ≠ [] then some (t.reverse, d.reverse, h.reverse) else none
    | _ => none
  | _ => none

/-- The dictionary `pieces`, l.252-307.  `error` holds the reason when the text of git could not be used; the
tag and the distance are then missing. -/
structure Pieces where
  long : Text
  short : Text
  error : Option Text
  dirty : Bool
  tag : Option Text
  distance : ℕ
  date : Option Text
deriving DecidableEq, Repr

/-- What the commands of `git_pieces_from_vcs` give: `rev-parse --git-dir` succeeded; the text of `describe`, of
`rev-parse HEAD`, of `rev-list HEAD --count` and of `show -s --format=%ci HEAD`. -/
structure Git where
  inside : Bool
  describe : Option Text
  head : Option Text
  count : Option Text
  date : Option Text

/-- `.replace(c, b, 1)`. -/
def replaceOne (c : Char) (b : Text) : Text → Text
  | [] => []
  | x :: s => if x = c then b ++ s else x :: replaceOne c b s

/-- l.176 and l.305: the date of git in the form of ISO 8601. -/
def iso (s : Text) : Text := replaceOne ' ' [] (replaceOne ' ' ['T'] (strip s))

/-- The ending of `describe --dirty`. -/
def dirtyMark : Text := (chars! "-dirty")

/-- `s.endswith(p)`. -/
def ends (p s : Text) : Bool := p.isSuffixOf s

/-- l.262-265: whether the text ends with the mark, and the text without it (the last `-dirty` is the ending). -/
def clean (s : Text) : Bool × Text :=
  if ends dirtyMark s then (true, s.take (s.length - 6)) else (false, s)

/-- l.303-305: the last command. -/
def withDate (g : Git) (p : Pieces) : Except Err Pieces :=
  match g.date with
  | none => .error .attributeError
  | some d => .ok { p with date := some (iso d) }

/-- l.269-300: the tag, the distance and the short name, for the text without the mark. -/
def parse (pre : Text) (g : Git) (out s : Text) (p : Pieces) : Except Err Pieces :=
  if '-' ∈ s then
    match groups s with
    | none => .ok { p with error := some ((chars! "unable to parse git-describe output: '") ++ out ++ ['\'']) }
    | some (t, d, h) =>
      if starts pre t then
        withDate g { p with tag := some (t.drop pre.length), distance := Nat.ofDigitChars 10 d 0, short := h }
      else .ok { p with error := some ((chars! "tag '") ++ t ++ (chars! "' doesn't start with prefix '") ++ pre ++ ['\'']) }
  else
    match g.count with
    | none => .error .typeError
    | some c =>
      match digitsVal (strip c) with
      | none => .error .valueError
      | some n => withDate g { p with tag := none, distance := n }

/-- `git_pieces_from_vcs`, l.219-307. -/
def pieces (pre : Text) (g : Git) : Except Err Pieces :=
  if g.inside then
    match g.describe with
    | none => .error .notThisMethod
    | some out =>
      match g.head with
      | none => .error .notThisMethod
      | some full =>
        let c := clean (strip out)
        parse pre g (strip out) c.2
          { long := strip full, short := (strip full).take 7, error := none, dirty := c.1, tag := none, distance := 0, date := none }
  else .error .notThisMethod

/-- The truth of `pieces["closest-tag"]`: missing and empty tags count as none. -/
def tagOf (p : Pieces) : Option Text := p.tag.filter (· ≠ [])

/-- `plus_or_dot`, l.310-314, for a tag. -/
def plusOrDot (t : Text) : Text := if '+' ∈ t then ['.'] else ['+']

/-- An ending that is written for a changed checkout only. -/
def mark (d : Bool) (s : Text) : Text := if d then s else []

/-- `render_pep440`, l.317-339. -/
def pep440 (p : Pieces) : Text :=
  match tagOf p with
  | some t =>
    if p.distance ≠ 0 ∨ p.dirty = true then
      t ++ (plusOrDot t ++ (dec p.distance ++ ((chars! ".g") ++ (p.short ++ mark p.dirty (chars! ".dirty")))))
    else t
  | none => (chars! "0+untagged.") ++ (dec p.distance ++ ((chars! ".g") ++ (p.short ++ mark p.dirty (chars! ".dirty"))))

/-- `render_pep440_pre`, l.342-355. -/
def pep440Pre (p : Pieces) : Text :=
  match tagOf p with
  | some t => if p.distance ≠ 0 then t ++ ((chars! ".post.dev") ++ dec p.distance) else t
  | none => (chars! "0.post.dev") ++ dec p.distance

/-- `render_pep440_post`, l.358-382. -/
def pep440Post (p : Pieces) : Text :=
  match tagOf p with
  | some t =>
    if p.distance ≠ 0 ∨ p.dirty = true then
      t ++ ((chars! ".post") ++ (dec p.distance ++ (mark p.dirty (chars! ".dev0") ++ (plusOrDot t ++ ('g' :: p.short)))))
    else t
  | none => (chars! "0.post") ++ (dec p.distance ++ (mark p.dirty (chars! ".dev0") ++ ((chars! "+g") ++ p.short)))

/-- `render_pep440_old`, l.385-404. -/
def pep440Old (p : Pieces) : Text :=
  match tagOf p with
  | some t =>
    if p.distance ≠ 0 ∨ p.dirty = true then t ++ ((chars! ".post") ++ (dec p.distance ++ mark p.dirty (chars! ".dev0")))
    else t
  | none => (chars! "0.post") ++ (dec p.distance ++ mark p.dirty (chars! ".dev0"))

/-- `render_git_describe`, l.407-424. -/
def gitDescribe (p : Pieces) : Text :=
  (match tagOf p with
   | some t => if p.distance ≠ 0 then t ++ ('-' :: (dec p.distance ++ ((chars! "-g") ++ p.short))) else t
   | none => p.short) ++ mark p.dirty dirtyMark

/-- `render_git_describe_long`, l.427-444. -/
def gitDescribeLong (p : Pieces) : Text :=
  (match tagOf p with
   | some t => t ++ ('-' :: (dec p.distance ++ ((chars! "-g") ++ p.short)))
   | none => p.short) ++ mark p.dirty dirtyMark

/-- The dictionary that `get_versions` returns. -/
structure Answer where
  version : Text
  full : Option Text
  dirty : Option Bool
  error : Option Text
  date : Option Text
deriving DecidableEq, Repr

/-- The choice of l.456-472: an empty style and `default` stand for `pep440`. -/
def renderer (style : Text) : Option (Pieces → Text) :=
  if style = [] ∨ style = (chars! "default") ∨ style = (chars! "pep440") then some pep440
  else if style = (chars! "pep440-pre") then some pep440Pre
  else if style = (chars! "pep440-post") then some pep440Post
  else if style = (chars! "pep440-old") then some pep440Old
  else if style = (chars! "git-describe") then some gitDescribe
  else if style = (chars! "git-describe-long") then some gitDescribeLong
  else none

/-- `render`, l.447-476. -/
def render (p : Pieces) (style : Text) : Except Err Answer :=
  match p.error with
  | some e => .ok ⟨(chars! "unknown"), some p.long, none, some e, none⟩
  | none =>
    match renderer style with
    | none => .error .valueError
    | some r => .ok ⟨r p, some p.long, some p.dirty, none, p.date⟩

/-- The keywords of an archive, l.22-32; the dictionary may lack entries when it is read from a file. -/
structure Keywords where
  refnames : Option Text
  full : Option Text
  date : Option Text

/-- Characters removed from both ends. -/
def stripOf (b : Char → Bool) (s : Text) : Text := ((s.dropWhile b).reverse.dropWhile b).reverse

/-- l.182: the references of the archive. -/
def refs (s : Text) : List Text := (cutAt ',' (stripOf (fun c => c = '(' || c = ')') s)).map strip

/-- The mark of a tag among the references, l.185. -/
def tagMark : Text := (chars! "tag: ")

/-- l.186-195: the tags, or else the references with a digit. -/
def likely (rs : List Text) : List Text :=
  let t := (rs.filter (starts tagMark)).map (List.drop tagMark.length)
  if t = [] then rs.filter (List.any · Char.isDigit) else t

/-- The first entry of the sorted list that starts with the prefix, l.200-203. -/
def chosen (pre : Text) (ts : List Text) : Option Text :=
  (ts.mergeSort (fun a b => decide (a ≤ b))).find? (starts pre)

/-- `git_versions_from_keywords`, l.164-215. -/
def fromKeywords (k : Keywords) (pre : Text) : Except Err Answer :=
  if k.refnames = none ∧ k.full = none ∧ k.date = none then .error .notThisMethod
  else
    match k.refnames with
    | none => .error .keyError
    | some r =>
      if starts (chars! "$Format") (strip r) then .error .notThisMethod
      else
        match k.full with
        | none => .error .keyError
        | some f =>
          match chosen pre (likely (refs (strip r))) with
          | some t => .ok ⟨t.drop pre.length, some (strip f), some false, none, k.date.map iso⟩
          | none => .ok ⟨(chars! "0+unknown"), some (strip f), some false, some (chars! "no suitable tags"), none⟩

/-- `versions_from_parentdir`, l.109-131: `dirs` are the names of the directory and of those above it. -/
def fromParent (pre : Text) (dirs : List Text) : Except Err Answer :=
  match (dirs.take 3).find? (starts pre) with
  | some d => .ok ⟨d.drop pre.length, none, some false, none, none⟩
  | none => .error .notThisMethod

/-- `get_config`, l.39-50. -/
structure Config where
  style : Text
  tagPrefix : Text
  parentPrefix : Text

/-- The configuration that is written in the file. -/
def config : Config := ⟨(chars! "pep440"), (chars! "v"), []⟩

/-- The keywords that are written in a checkout, l.28-31. -/
def keywords : Keywords := ⟨some (chars! "$Format:%d$"), some (chars! "$Format:%H$"), some (chars! "$Format:%ci$")⟩

/-- The answer when nothing worked, l.520-522. -/
def unable : Answer := ⟨(chars! "0+unknown"), none, none, some (chars! "unable to compute version"), none⟩

/-- l.514-522. -/
def lastResort (c : Config) (dirs : List Text) : Except Err Answer :=
  if c.parentPrefix = [] then .ok unable
  else
    match fromParent c.parentPrefix dirs with
    | .error .notThisMethod => .ok unable
    | r => r

/-- l.508-522. -/
def fromGit (c : Config) (g : Git) (dirs : List Text) : Except Err Answer :=
  match (pieces c.tagPrefix g).bind (render · c.style) with
  | .error .notThisMethod => lastResort c dirs
  | r => r

/-- `get_versions`, l.479-522, for a file with a known place (`__file__` is defined). -/
def versions (c : Config) (k : Keywords) (g : Git) (dirs : List Text) : Except Err Answer :=
  match fromKeywords k c.tagPrefix with
  | .error .notThisMethod => fromGit c g dirs
  | r => r

end Verif.Version
