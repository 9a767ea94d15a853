import Mathlib.Logic.Relation
import Verif.WarnCat
import Verif.WarnProps
import Mathlib.Data.List.Induction
/-!
Property C157: warnings have the category they are given, and filters act on the categories they name.
-/
namespace Verif.WarnCat
open Verif.Warn (Action)

/-- The classes of warnings of this package, including those a user derives from them. -/
def Ours : Cls → Prop
  | .base | .sub _ | .own _ _ => True
  | _ => False

theorem isSub_base (c : Cls) : isSub c .base = true ↔ Ours c := by
  cases c <;> simp [isSub, Ours]

theorem mem_all (s : Sub) : s ∈ Sub.all := by cases s <;> decide

/-- Every category is found by its name, and no two have the same one; the names are those of the classes. -/
theorem C157_names : (∀ s, resolve (.text s.name) = some (.sub s)) ∧ (∀ s t : Sub, s.name = t.name → s = t) ∧
    Sub.all.map (fun s => String.ofList s.name) = ["ApproximationWarning", "BinaryParsingWarning", "ClassificationWarning", "EvolutionWarning",
      "InappropriateValueWarning", "IncompletenessWarning", "InterpolationWarning", "MissingFilesWarning", "OverwriteWarning", "ReplaceValueWarning",
      "UnsupportedModelWarning", "SFHModelWarning", "DeprecationWarning", "ValueWarning", "InitializationWarning", "StepWarning"] := by
  refine ⟨fun s => ?_, fun s t => ?_, by decide +kernel⟩
  · cases s <;> decide +kernel
  · have h : ∀ s ∈ Sub.all, ∀ t ∈ Sub.all, s.name = t.name → s = t := by decide +kernel
    exact h s (mem_all s) t (mem_all t)

/-- A text that names no category stands for all of them; a class stands for itself if it is one of this package; nothing else is a category. -/
theorem C157_resolve : (∀ s : Name, (∀ t : Sub, t.name ≠ s) → resolve (.text s) = some .base) ∧ (∀ c, Ours c → resolve (.cls c) = some c) ∧
    (∀ c, ¬Ours c → resolve (.cls c) = none) ∧ resolve .junk = none := by
  refine ⟨fun s h => ?_, fun c h => if_pos ((isSub_base c).2 h), fun c h => if_neg (mt (isSub_base c).1 h), rfl⟩
  have hl : lookup s = none := List.find?_eq_none.2 fun t _ => by simpa using h t
  show (match lookup s with | some t => some (Cls.sub t) | none => some .base) = _
  rw [hl]

/-- Whatever is found is a class of this package. -/
theorem resolve_ours {a : Arg} {c : Cls} (h : resolve a = some c) : Ours c := by
  cases a with
  | junk => cases h
  | cls d =>
    by_cases hd : Ours d
    · rw [C157_resolve.2.1 d hd] at h; cases h; exact hd
    · rw [C157_resolve.2.2.1 d hd] at h; cases h
  | text s =>
    change (match lookup s with | some t => some (Cls.sub t) | none => some .base) = _ at h
    cases hl : lookup s with
    | none => rw [hl] at h; cases h; trivial
    | some t => rw [hl] at h; cases h; trivial

section
variable {T W : Type} [DecidableEq T]

/-- A setting of the filters speaks of a category. -/
def About (a : Arg) (c : Cls) : Prop := ∃ d, resolve a = some d ∧ isSub c d = true

instance (a : Arg) (c : Cls) : Decidable (About a c) := by
  unfold About
  cases h : resolve a with
  | none => exact isFalse (by rintro ⟨d, h, -⟩; cases h)
  | some d => exact decidable_of_iff (isSub c d = true) ⟨fun h => ⟨d, rfl, h⟩, by rintro ⟨e, h, h'⟩; cases h; exact h'⟩

theorem find_erase (p : Item T → Bool) (i : Item T) (hi : p i = false) : ∀ l : List (Item T), (l.erase i).find? p = l.find? p
  | [] => rfl
  | a :: l => by
    by_cases h : a = i
    · subst h
      rw [List.erase_cons_head, List.find?_cons, hi]
    · rw [List.erase_cons_tail (by simpa using h), List.find?_cons, List.find?_cons, find_erase p i hi l]

/-- One setting: the categories it speaks of get its action, the others keep theirs. -/
theorem C157_set (holds : T → W → Bool) (l : List (Item T)) (act : Action) (a : Arg) (c : Cls) (w : W) :
    action holds (set l act a none false) c w = if About a c then act else action holds l c w := by
  cases h : resolve a with
  | none =>
    rw [if_neg (by rintro ⟨d, hd, -⟩; rw [h] at hd; cases hd)]
    unfold set
    rw [h]
  | some d =>
    unfold set
    rw [h]
    unfold add
    dsimp only
    rw [if_neg (show ¬(false = true) by simp)]
    by_cases hs : isSub c d = true
    · rw [if_pos ⟨d, h, hs⟩]
      unfold action
      rw [List.find?_cons_of_pos (by simp [hs])]
    · rw [if_neg (by rintro ⟨e, he, h'⟩; rw [h] at he; cases he; exact hs h')]
      unfold action
      rw [List.find?_cons_of_neg (by simp [hs]), find_erase _ _ (by simp [hs])]

/-- With a condition: the warnings that meet it get the action, all others keep theirs. -/
theorem C157_set_condition (holds : T → W → Bool) (l : List (Item T)) (act : Action) (a : Arg) (t : T) (c : Cls) (w : W) :
    action holds (set l act a (some t) false) c w = if About a c ∧ holds t w = true then act else action holds l c w := by
  cases h : resolve a with
  | none =>
    rw [if_neg (by rintro ⟨⟨d, hd, -⟩, -⟩; rw [h] at hd; cases hd)]
    unfold set
    rw [h]
  | some d =>
    unfold set
    rw [h]
    unfold add
    dsimp only
    rw [if_neg (show ¬(false = true) by simp)]
    by_cases hs : isSub c d = true ∧ holds t w = true
    · rw [if_pos ⟨⟨d, h, hs.1⟩, hs.2⟩]
      unfold action
      rw [List.find?_cons_of_pos (by simp [hs.1, hs.2])]
    · rw [if_neg (by rintro ⟨⟨e, he, h'⟩, h2⟩; rw [h] at he; cases he; exact hs ⟨h', h2⟩)]
      have hf : ((some t).all (fun t => holds t w) && isSub c d) = false := by
        rw [Bool.eq_false_iff]
        intro hh
        simp at hh
        exact hs ⟨hh.2, hh.1⟩
      unfold action
      rw [List.find?_cons_of_neg (by rw [hf]; simp), find_erase _ _ hf]

/-- A setting behind the others only fills a gap: an action that some filter gives already stays. -/
theorem C157_set_behind (holds : T → W → Bool) (l : List (Item T)) (act : Action) (a : Arg) (c : Cls) (w : W)
    (h : ∃ i ∈ l, (i.cond.all fun t => holds t w) = true ∧ isSub c i.cat = true) : action holds (set l act a none true) c w = action holds l c w := by
  unfold set
  cases hr : resolve a with
  | none => rfl
  | some d =>
    unfold add
    dsimp only
    rw [if_pos rfl]
    split_ifs
    · rfl
    · unfold action
      obtain ⟨i, hi, h1, h2⟩ := h
      cases hf : l.find? fun i => (i.cond.all fun t => holds t w) && isSub c i.cat with
      | none =>
        have := List.find?_eq_none.1 hf i hi
        simp [h1, h2] at this
      | some j => rw [List.find?_append, hf]; rfl

/-- The last setting that speaks of a category decides, whatever the order and the number of settings; without any, nothing changes. -/
theorem C157_last (holds : T → W → Bool) (l : List (Item T)) (cs : List Change) (c : Cls) (w : W) :
    action holds (changes l cs) c w = match (cs.filter fun x => decide (About x.arg c)).getLast? with
      | some x => x.act
      | none => action holds l c w := by
  induction cs using List.reverseRecOn with
  | nil => rfl
  | append_singleton cs x ih =>
    unfold changes at ih ⊢
    rw [List.foldl_append, List.foldl_cons, List.foldl_nil, C157_set, List.filter_append]
    by_cases h : About x.arg c
    · rw [if_pos h, List.filter_cons_of_pos (by simpa using h)]
      simp
    · rw [if_neg h, List.filter_cons_of_neg (by simpa using h), ih]
      simp

/-- Settings of the warnings of this package leave all others as they are. -/
theorem C157_others (holds : T → W → Bool) (l : List (Item T)) (cs : List Change) (c : Cls) (hc : ¬Ours c) (w : W) :
    action holds (changes l cs) c w = action holds l c w := by
  rw [C157_last]
  have : cs.filter (fun x => decide (About x.arg c)) = [] := by
    rw [List.filter_eq_nil_iff]
    intro x _
    simp only [decide_eq_true_eq]
    rintro ⟨d, hd, hs⟩
    have ho := resolve_ours hd
    cases c <;> cases d <;> simp_all [isSub, Ours]
  rw [this]
  rfl

/-- Silencing or showing one category concerns it and nothing else; silencing or showing the base class concerns all. -/
theorem C157_silence (holds : T → W → Bool) (l : List (Item T)) (s t : Sub) (w : W) :
    action holds (silence l (.text s.name)) (.sub t) w = (if t = s then .ignore else action holds l (.sub t) w) ∧
    action holds (showAll l (.text s.name)) (.sub t) w = (if t = s then .always else action holds l (.sub t) w) ∧
    action holds (silence l (.cls .base)) (.sub t) w = .ignore ∧ action holds (showAll l (.cls .base)) (.sub t) w = .always ∧
    action holds (silence l (.text s.name)) .base w = action holds l .base w := by
  have ha : About (.text s.name) (.sub t) ↔ t = s := by
    constructor
    · rintro ⟨d, hd, hs⟩
      rw [C157_names.1 s] at hd
      cases hd
      simpa [isSub] using hs
    · rintro rfl
      exact ⟨_, C157_names.1 t, by simp [isSub]⟩
  have hb : About (.cls .base) (.sub t) := ⟨.base, rfl, rfl⟩
  have hn : ¬About (.text s.name) .base := by
    rintro ⟨d, hd, hs⟩
    rw [C157_names.1 s] at hd
    cases hd
    simp [isSub] at hs
  unfold silence showAll
  simp only [C157_set, if_pos hb, if_neg hn, and_true]
  constructor <;> simp only [ha]

/-- VIOLATED: a category that does not exist is no error and not without effect: silencing it silences every warning of this package. -/
theorem C157_misspelt_violated (holds : T → W → Bool) (l : List (Item T)) (s : Name) (hs : ∀ t : Sub, t.name ≠ s) (c : Cls) (hc : Ours c) (w : W) :
    action holds (silence l (.text s)) c w = .ignore := by
  have hr : resolve (.text s) = some .base := C157_resolve.1 s hs
  unfold silence
  rw [C157_set, if_pos ⟨.base, hr, (isSub_base c).2 hc⟩]

/-- Silenced warnings are neither shown nor counted: with the filters in front, the machinery of the registry sees only the others. -/
theorem C157_not_counted {K : Type} [DecidableEq K] (holds : T → W → Bool) (l : List (Item T)) (cat : W → Cls) (key : Bool → W → K) (s : Sub)
    (st : Warn.St W K) (hc : st.catch' = false) (ho : st.own = none) (ws : List W) (hw : ∀ w ∈ ws, cat w = .sub s) :
    let env : Warn.Env W K := ⟨key, fun _ w => action holds (silence l (.text s.name)) (cat w) w⟩
    (Warn.warnAll env ws st).shown = st.shown ∧ (Warn.warnAll env ws st).glob = st.glob := by
  intro env
  have hact : ∀ w ∈ ws, env.act false w = .ignore := by
    intro w h
    show action holds (silence l (.text s.name)) (cat w) w = .ignore
    rw [hw w h, (C157_silence holds l s s w).1, if_pos rfl]
  obtain ⟨h1, h2, -⟩ := Warn.C12_shown_and_counted env st hc ho ws
  rw [h1, h2]
  constructor
  · have : ∀ (ws pre : List W), (∀ w ∈ ws, env.act false w = .ignore) → Warn.selected env st.glob pre ws = [] := by
      intro ws
      induction ws with
      | nil => intros; rfl
      | cons w ws ih =>
        intro pre h
        unfold Warn.selected Warn.passes
        rw [h w (by simp), ih _ fun x hx => h x (by simp [hx])]
        rfl
    rw [this ws [] hact, List.append_nil]
  · funext k
    unfold Warn.counts
    rw [List.filter_eq_nil_iff.2]
    · rfl
    · intro w h
      rw [hact w h]
      simp [Warn.counted]

end

/-! ### `Pwarn` -/

/-- A warning with a text for a message and a number for the level is never an error, and of the category it is given: those of this package go to the
registry, other classes of warnings and missing categories to Python. -/
theorem C157_issue (s : Name) (a : Arg) (n : Int) :
    (∀ t : Sub, a = .text t.name → pwarn (.text s) a (.int n) = .posydon s (.sub t) n) ∧
    (∀ x, a = .text x → (∀ t : Sub, t.name ≠ x) → pwarn (.text s) a (.int n) = .posydon s .base n) ∧
    (∀ c, a = .cls c → Ours c → pwarn (.text s) a (.int n) = .posydon s c n) ∧
    (∀ c, a = .cls c → ¬Ours c → pwarn (.text s) a (.int n) = .python s (some c) n) ∧
    (a = .junk → pwarn (.text s) a (.int n) = .python s none n) := by
  refine ⟨?_, ?_, ?_, ?_, ?_⟩
  · rintro t rfl
    unfold pwarn given
    simp only [C157_names.1 t]
    rfl
  · rintro x rfl hx
    have hr : resolve (.text x) = some .base := C157_resolve.1 x hx
    unfold pwarn given
    simp only [hr]
    rfl
  · rintro c rfl hc
    unfold pwarn given
    simp only [(isSub_base c).2 hc, if_true]
  · rintro c rfl hc
    unfold pwarn given
    simp only [mt (isSub_base c).1 hc, Bool.false_eq_true, if_false]
  · rintro rfl
    rfl

/-- It is an error exactly if the message is no text or the level no number. -/
theorem C157_type_error (m : Val) (a : Arg) (l : Val) : pwarn m a l = .typeError ↔ (∀ s, m ≠ .text s) ∨ ∀ n, l ≠ .int n := by
  cases m with
  | text s =>
    cases l with
    | int n =>
      have : pwarn (.text s) a (.int n) ≠ .typeError := by
        unfold pwarn
        dsimp only
        split
        · split_ifs <;> simp
        · simp
      simp [this]
    | text x => simp [pwarn]
    | other => simp [pwarn]
  | int n => simp [pwarn]
  | other => simp [pwarn]

/-- VIOLATED: an unknown mode of magnetic braking should give a warning of an unsupported model, but raises a `TypeError`, whatever the mode. -/
theorem C157_braking_violated (mode : Name) : brakingWarning mode = .typeError ∧
    ∀ s n, pwarn (.text s) (.text Sub.unsupportedModel.name) (.int n) = .posydon s (.sub .unsupportedModel) n :=
  ⟨rfl, fun s n => (C157_issue s _ n).1 _ rfl⟩

/-! ### Examples -/

def demo : List (Item ℕ) := [⟨.ignore, .other 1, none⟩, ⟨.error, .root, some 3⟩]

example : action (fun (t : ℕ) (w : ℕ) => t == w) demo (.sub .overwrite) 3 = .error ∧ action (fun (t : ℕ) (w : ℕ) => t == w) demo (.sub .overwrite) 4 = .default ∧
    action (fun (t : ℕ) (w : ℕ) => t == w) (changes demo [⟨.ignore, .cls .base⟩, ⟨.always, .text (chars! "OverwriteWarning")⟩]) (.sub .overwrite) 3 = .always ∧
    action (fun (t : ℕ) (w : ℕ) => t == w) (changes demo [⟨.ignore, .cls .base⟩, ⟨.always, .text (chars! "OverwriteWarning")⟩]) (.sub .evolution) 3 = .ignore ∧
    action (fun (t : ℕ) (w : ℕ) => t == w) (changes demo [⟨.ignore, .cls .base⟩]) (.other 7) 3 = .error := by decide +kernel

example : ∀ t : Sub, t.name ≠ (chars! "OverwriteWarnings") := by intro t; cases t <;> decide

/-- The class directly above a class. -/
inductive Parent : Cls → Cls → Prop
  | base : Parent .base .root
  | sub (s : Sub) : Parent (.sub s) .base
  | own (n) : Parent (.own n none) .base
  | ownSub (n) (s : Sub) : Parent (.own n (some s)) (.sub s)
  | other (n) : Parent (.other n) .root

/-- A class is caught by a filter of a class exactly if a chain of classes, each derived from the next, leads from the one to the other. -/
theorem C157_derived (c d : Cls) : isSub c d = true ↔ Relation.ReflTransGen Parent c d := by
  constructor
  · intro h
    have hb : ∀ s : Sub, Relation.ReflTransGen Parent (.sub s) .base := fun s => .single (.sub s)
    have ho : ∀ n p, Relation.ReflTransGen Parent (.own n p) .base := by
      intro n p
      cases p with
      | none => exact .single (.own n)
      | some s => exact .head (.ownSub n s) (hb s)
    have hr : Relation.ReflTransGen Parent .base .root := .single .base
    cases c <;> cases d <;> simp only [isSub, decide_eq_true_eq, Bool.false_eq_true, reduceCtorEq] at h <;> try exact .refl
    all_goals first
      | exact hr
      | exact hb _
      | exact ho _ _
      | exact (hb _).trans hr
      | exact (ho _ _).trans hr
      | exact .single (.other _)
      | (subst h; exact .refl)
      | (subst h; exact .single (.ownSub _ _))
      | (obtain ⟨h1, h2⟩ := h; subst h1; subst h2; exact .refl)
  · intro h
    have tr : ∀ {x y : Cls}, isSub c x = true → Parent x y → isSub c y = true := by
      intro x y hx hp
      cases hp <;> cases c <;> simp_all [isSub]
    induction h with
    | refl => cases c <;> simp [isSub]
    | tail _ hp ih => exact tr ih hp

/-- A category that is neither a text nor a class gives a `UserWarning`; a text always gives a warning of this package. -/
theorem C157_user (s : Name) : category .junk = .other 0 ∧ Ours (category (.text s)) := by
  refine ⟨rfl, ?_⟩
  have h : ∃ c, resolve (.text s) = some c := by
    by_cases h : ∃ t : Sub, t.name = s
    · obtain ⟨t, rfl⟩ := h; exact ⟨_, C157_names.1 t⟩
    · exact ⟨_, C157_resolve.1 s (fun t ht => h ⟨t, ht⟩)⟩
  obtain ⟨c, hc⟩ := h
  show Ours ((resolve (.text s)).getD (.other 0))
  rw [hc]
  exact resolve_ours hc

end Verif.WarnCat
