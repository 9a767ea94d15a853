import Verif.Warn
import Verif.Chars
/-!
Model of the categories of warnings and of their filters, `/repo/posydon/utils/posydonwarning.py`: the classes (l.53-142), their names (l.145-147),
`_get_POSYDONWarning_class` (l.149-171), the choice of the action in `_apply_POSYDON_filter` (l.228-273), the checks of `Pwarn` (l.562-592),
`SetPOSYDONWarnings` (l.594-610), `NoPOSYDONWarnings` (l.612-620), `AllPOSYDONWarnings` (l.622-630), and of Python's `warnings.filterwarnings`, which
puts a filter in front of the others, after removing an equal one, or behind them with `append=True` if there is no equal one.

Simplifications: the message, module and line that a filter asks for are a condition, which is an element of a type `T` with a meaning `holds`;
classes that are not warnings of this package are numbered, and those of them that are derived from each other are not modelled.
-/
namespace Verif.WarnCat
open Verif.Warn (Action)

abbrev Name := List Char

/-- The classes derived from `POSYDONWarning`, l.62-142. -/
inductive Sub
  | approximation | binaryParsing | classification | evolution | inappropriateValue | incompleteness | interpolation | missingFiles | overwrite
  | replaceValue | unsupportedModel | sfhModel | deprecation | value | initialization | step
  deriving DecidableEq, Repr

/-- The names of the classes. -/
def Sub.name : Sub → Name
  | .approximation => (chars! "ApproximationWarning") | .binaryParsing => (chars! "BinaryParsingWarning")
  | .classification => (chars! "ClassificationWarning") | .evolution => (chars! "EvolutionWarning")
  | .inappropriateValue => (chars! "InappropriateValueWarning") | .incompleteness => (chars! "IncompletenessWarning")
  | .interpolation => (chars! "InterpolationWarning") | .missingFiles => (chars! "MissingFilesWarning") | .overwrite => (chars! "OverwriteWarning")
  | .replaceValue => (chars! "ReplaceValueWarning") | .unsupportedModel => (chars! "UnsupportedModelWarning") | .sfhModel => (chars! "SFHModelWarning")
  | .deprecation => (chars! "DeprecationWarning") | .value => (chars! "ValueWarning") | .initialization => (chars! "InitializationWarning")
  | .step => (chars! "StepWarning")

/-- `POSYDONWarning.__subclasses__()`, in the order of the definitions. -/
def Sub.all : List Sub :=
  [.approximation, .binaryParsing, .classification, .evolution, .inappropriateValue, .incompleteness, .interpolation, .missingFiles, .overwrite,
   .replaceValue, .unsupportedModel, .sfhModel, .deprecation, .value, .initialization, .step]

/-- Classes of warnings: `Warning`, those of this package, those that a user derives from them, and others (`UserWarning` is number 0). -/
inductive Cls
  | root | base | sub (s : Sub) | own (n : ℕ) (parent : Option Sub) | other (n : ℕ)
  deriving DecidableEq

/-- `issubclass`. -/
def isSub : Cls → Cls → Bool
  | _, .root => true
  | .base, .base => true
  | .sub _, .base => true
  | .own _ _, .base => true
  | .sub s, .sub t => decide (s = t)
  | .own _ p, .sub t => decide (p = some t)
  | .own n p, .own m q => decide (n = m ∧ p = q)
  | .other n, .other m => decide (n = m)
  | _, _ => false

/-- What can be given as a category: a text, a class of warnings, or anything else. -/
inductive Arg
  | text (s : Name) | cls (c : Cls) | junk

/-- L.145-147. -/
def lookup (s : Name) : Option Sub := Sub.all.find? fun t => decide (t.name = s)

/-- `_get_POSYDONWarning_class`, l.149-171. -/
def resolve : Arg → Option Cls
  | .text s => match lookup s with
    | some t => some (.sub t)
    | none => some .base
  | .cls c => if isSub c .base then some c else none
  | .junk => none

section
variable {T W : Type} [DecidableEq T]

/-- A filter of Python. -/
structure Item (T : Type) where
  act : Action
  cat : Cls
  cond : Option T
  deriving DecidableEq

/-- L.228-234 and 576-577: the category of a warning. -/
def category (a : Arg) : Cls :=
  match a with
  | .cls c => c
  | a => (resolve a).getD (.other 0)

/-- L.262-273: the action of the first filter that fits. -/
def action (holds : T → W → Bool) (l : List (Item T)) (cat : Cls) (w : W) : Action :=
  match l.find? fun i => (i.cond.all fun t => holds t w) && isSub cat i.cat with
  | some i => i.act
  | none => .default

/-- `warnings.filterwarnings`. -/
def add (l : List (Item T)) (i : Item T) (behind : Bool) : List (Item T) :=
  if behind then (if i ∈ l then l else l ++ [i]) else i :: l.erase i

/-- `SetPOSYDONWarnings`, l.594-610. -/
def set (l : List (Item T)) (act : Action) (a : Arg) (cond : Option T) (behind : Bool) : List (Item T) :=
  match resolve a with
  | some c => add l ⟨act, c, cond⟩ behind
  | none => l

/-- `NoPOSYDONWarnings`, l.612-620. -/
def silence (l : List (Item T)) (a : Arg) : List (Item T) := set l .ignore a none false

/-- `AllPOSYDONWarnings`, l.622-630. -/
def showAll (l : List (Item T)) (a : Arg) : List (Item T) := set l .always a none false

/-- One change of the filters without conditions. -/
structure Change where
  act : Action
  arg : Arg

/-- A series of changes. -/
def changes (l : List (Item T)) (cs : List Change) : List (Item T) := cs.foldl (fun l c => set l c.act c.arg none false) l

end

/-! ### `Pwarn` -/

/-- A value given to `Pwarn` as message or stack level. -/
inductive Val
  | text (s : Name) | int (n : Int) | other

/-- What `Pwarn` does: an error, a warning of this package, or one handed on to Python with a class or `None`. -/
inductive Out
  | typeError
  | posydon (message : Name) (c : Cls) (level : Int)
  | python (message : Name) (c : Option Cls) (level : Int)
  deriving DecidableEq

/-- L.576-577: a class of warnings is left as it is. -/
def given (a : Arg) : Option Cls :=
  match a with
  | .cls c => some c
  | a => resolve a

/-- `Pwarn`, l.572-592. -/
def pwarn (message : Val) (category : Arg) (level : Val) : Out :=
  match message with
  | .text s => match level with
    | .int n =>
      match given category with
      | some c => if isSub c .base then .posydon s c n else .python s (some c) n
      | none => .python s none n
    | _ => .typeError
  | _ => .typeError

/-- The warning about an unknown mode of magnetic braking, `/repo/posydon/binary_evol/DT/step_detached.py` l.1385-1392: a comma separates the first half
of the message from the second, so that the second half is the category and the name of the category is the stack level. -/
def brakingWarning (mode : Name) : Out :=
  pwarn (.text (chars! "WARNING: Magnetic braking is not being calculated in the detached step. The given magnetic_braking_mode string "))
    (.text ('\'' :: mode ++ (chars! "' does not match the available built-in cases.")))
    (.text (chars! "UnsupportedModelWarning"))

end Verif.WarnCat
