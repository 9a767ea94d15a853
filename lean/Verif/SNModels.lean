import Verif.Chars
import Mathlib.Algebra.Order.Field.Rat
import Mathlib.Data.List.Nodup
import Mathlib.Data.List.Dedup
import Mathlib.Tactic.Common
/-!
Model of the pre-defined supernova models, `/repo/posydon/grids/SN_MODELS.py` (all of it), of their use when an ini file is
checked, `/repo/posydon/CLI/popsyn/setup.py` `check_SN_MODEL_validity` (l.36-50), and in the supernova step,
`/repo/posydon/binary_evol/SN/step_SN.py` `StepSN.__init__` (l.267-320, 417-418) and `collapse_star` (l.574-584).

Simplifications: values are texts, numbers, truth values and `None`; a number that is not a number (nan) is not among them. The engines
that the step builds for its mechanism are left out, as are the settings of kicks except for their names. An ini file is the
dictionary that `simprop_kwargs_from_ini` gives for the section of the supernova step.
-/
namespace Verif.SNModels

inductive Key
  | mechanism | engine | pisn | pisnShift | ppi | ecsn | consEnv | consPPI | maxNu | maxNS | useInterp | useProfiles | useCore
  | spinNone | heDep
  deriving DecidableEq

/-- The keys of `DEFAULT_SN_MODEL` in their order, l.23-39. -/
def Key.all : List Key :=
  [.mechanism, .engine, .pisn, .pisnShift, .ppi, .ecsn, .consEnv, .consPPI, .maxNu, .maxNS, .useInterp, .useProfiles, .useCore,
   .spinNone, .heDep]

def Key.text : Key → List Char
  | .mechanism => chars! "mechanism"
  | .engine => chars! "engine"
  | .pisn => chars! "PISN"
  | .pisnShift => chars! "PISN_CO_shift"
  | .ppi => chars! "PPI_extra_mass_loss"
  | .ecsn => chars! "ECSN"
  | .consEnv => chars! "conserve_hydrogen_envelope"
  | .consPPI => chars! "conserve_hydrogen_PPI"
  | .maxNu => chars! "max_neutrino_mass_loss"
  | .maxNS => chars! "max_NS_mass"
  | .useInterp => chars! "use_interp_values"
  | .useProfiles => chars! "use_profiles"
  | .useCore => chars! "use_core_masses"
  | .spinNone => chars! "allow_spin_None"
  | .heDep => chars! "approx_at_he_depletion"

inductive Val
  | none
  | text (s : List Char)
  | num (q : ℚ)
  | bool (b : Bool)
  deriving DecidableEq

/-- Truth values are numbers for a comparison. -/
def Val.norm : Val → Val
  | .bool true => .num 1
  | .bool false => .num 0
  | v => v

/-- Equality of two values as Python has it. -/
def Val.eq (a b : Val) : Bool := decide (a.norm = b.norm)

/-- Whether a value counts as true in a condition. -/
def Val.truthy : Val → Bool
  | .none => false
  | .text s => !s.isEmpty
  | .num q => decide (q ≠ 0)
  | .bool b => b

/-- `DEFAULT_SN_MODEL`, l.23-39, with the limits of `posydon/utils/limits_thresholds.py` l.80, 84. -/
def default : Key → Val
  | .mechanism => .text (chars! "Fryer+12-delayed")
  | .engine => .text []
  | .pisn => .text (chars! "Hendriks+23")
  | .pisnShift => .num 0
  | .ppi => .num (-20)
  | .ecsn => .text (chars! "Tauris+15")
  | .consEnv => .bool false
  | .consPPI => .bool false
  | .maxNu => .num (1 / 2)
  | .maxNS => .num (5 / 2)
  | .useInterp => .bool true
  | .useProfiles => .bool true
  | .useCore => .bool true
  | .spinNone => .bool false
  | .heDep => .bool false

abbrev Row := List Char × List (Key × Val)

/-- `SN_MODELS`, l.43-521. -/
def models : List Row :=
  [((chars! "SN_MODEL_v2_01"), [(.useInterp, .bool false), (.useCore, .bool false)]),
   ((chars! "SN_MODEL_v2_02"), [(.consEnv, .bool true), (.useInterp, .bool false), (.useCore, .bool false)]),
   ((chars! "SN_MODEL_v2_03"), [(.ppi, .num 0), (.useInterp, .bool false), (.useCore, .bool false)]),
   ((chars! "SN_MODEL_v2_04"), [(.ppi, .num 0), (.consEnv, .bool true), (.useInterp, .bool false), (.useCore, .bool false)]),
   ((chars! "SN_MODEL_v2_05"), [(.mechanism, .text (chars! "Fryer+12-rapid")), (.useInterp, .bool false), (.useCore, .bool false)]),
   ((chars! "SN_MODEL_v2_06"), [(.mechanism, .text (chars! "Fryer+12-rapid")), (.consEnv, .bool true), (.useInterp, .bool false), (.useCore, .bool false)]),
   ((chars! "SN_MODEL_v2_07"), [(.mechanism, .text (chars! "Fryer+12-rapid")), (.ppi, .num 0), (.useInterp, .bool false), (.useCore, .bool false)]),
   ((chars! "SN_MODEL_v2_08"), [(.mechanism, .text (chars! "Fryer+12-rapid")), (.ppi, .num 0), (.consEnv, .bool true), (.useInterp, .bool false), (.useCore, .bool false)]),
   ((chars! "SN_MODEL_v2_09"), [(.mechanism, .text (chars! "Sukhbold+16-engine")), (.engine, .text (chars! "N20")), (.useInterp, .bool false), (.useCore, .bool false)]),
   ((chars! "SN_MODEL_v2_10"), [(.mechanism, .text (chars! "Sukhbold+16-engine")), (.engine, .text (chars! "N20")), (.consEnv, .bool true), (.useInterp, .bool false), (.useCore, .bool false)]),
   ((chars! "SN_MODEL_v2_11"), [(.mechanism, .text (chars! "Sukhbold+16-engine")), (.engine, .text (chars! "N20")), (.ppi, .num 0), (.useInterp, .bool false), (.useCore, .bool false)]),
   ((chars! "SN_MODEL_v2_12"), [(.mechanism, .text (chars! "Sukhbold+16-engine")), (.engine, .text (chars! "N20")), (.ppi, .num 0), (.consEnv, .bool true), (.useInterp, .bool false), (.useCore, .bool false)]),
   ((chars! "SN_MODEL_v2_13"), [(.mechanism, .text (chars! "Patton&Sukhbold20-engine")), (.engine, .text (chars! "N20")), (.useInterp, .bool false), (.useCore, .bool false)]),
   ((chars! "SN_MODEL_v2_14"), [(.mechanism, .text (chars! "Patton&Sukhbold20-engine")), (.engine, .text (chars! "N20")), (.consEnv, .bool true), (.useInterp, .bool false), (.useCore, .bool false)]),
   ((chars! "SN_MODEL_v2_15"), [(.mechanism, .text (chars! "Patton&Sukhbold20-engine")), (.engine, .text (chars! "N20")), (.ppi, .num 0), (.useInterp, .bool false), (.useCore, .bool false)]),
   ((chars! "SN_MODEL_v2_16"), [(.mechanism, .text (chars! "Patton&Sukhbold20-engine")), (.engine, .text (chars! "N20")), (.ppi, .num 0), (.consEnv, .bool true), (.useInterp, .bool false), (.useCore, .bool false)]),
   ((chars! "SN_MODEL_v2_17"), [(.mechanism, .text (chars! "Sukhbold+16-engine")), (.engine, .text (chars! "W20")), (.useInterp, .bool false), (.useCore, .bool false)]),
   ((chars! "SN_MODEL_v2_18"), [(.mechanism, .text (chars! "Sukhbold+16-engine")), (.engine, .text (chars! "W20")), (.consEnv, .bool true), (.useInterp, .bool false), (.useCore, .bool false)]),
   ((chars! "SN_MODEL_v2_19"), [(.mechanism, .text (chars! "Sukhbold+16-engine")), (.engine, .text (chars! "W20")), (.ppi, .num 0), (.useInterp, .bool false), (.useCore, .bool false)]),
   ((chars! "SN_MODEL_v2_20"), [(.mechanism, .text (chars! "Sukhbold+16-engine")), (.engine, .text (chars! "W20")), (.ppi, .num 0), (.consEnv, .bool true), (.useInterp, .bool false), (.useCore, .bool false)]),
   ((chars! "SN_MODEL_v2_21"), [(.mechanism, .text (chars! "Patton&Sukhbold20-engine")), (.engine, .text (chars! "W20")), (.useInterp, .bool false), (.useCore, .bool false)]),
   ((chars! "SN_MODEL_v2_22"), [(.mechanism, .text (chars! "Patton&Sukhbold20-engine")), (.engine, .text (chars! "W20")), (.consEnv, .bool true), (.useInterp, .bool false), (.useCore, .bool false)]),
   ((chars! "SN_MODEL_v2_23"), [(.mechanism, .text (chars! "Patton&Sukhbold20-engine")), (.engine, .text (chars! "W20")), (.ppi, .num 0), (.useInterp, .bool false), (.useCore, .bool false)]),
   ((chars! "SN_MODEL_v2_24"), [(.mechanism, .text (chars! "Patton&Sukhbold20-engine")), (.engine, .text (chars! "W20")), (.ppi, .num 0), (.consEnv, .bool true), (.useInterp, .bool false), (.useCore, .bool false)]),
   ((chars! "SN_MODEL_v2_25"), [(.mechanism, .text (chars! "Maltsev+25-engine")), (.engine, .text (chars! "M16")), (.useInterp, .bool false), (.useCore, .bool false)]),
   ((chars! "SN_MODEL_v2_26"), [(.mechanism, .text (chars! "Maltsev+25-engine")), (.engine, .text (chars! "M16")), (.consEnv, .bool true), (.useInterp, .bool false), (.useCore, .bool false)]),
   ((chars! "SN_MODEL_v2_27"), [(.mechanism, .text (chars! "Maltsev+25-engine")), (.engine, .text (chars! "M16")), (.ppi, .num 0), (.useInterp, .bool false), (.useCore, .bool false)]),
   ((chars! "SN_MODEL_v2_28"), [(.mechanism, .text (chars! "Maltsev+25-engine")), (.engine, .text (chars! "M16")), (.ppi, .num 0), (.consEnv, .bool true), (.useInterp, .bool false), (.useCore, .bool false)])]

/-- `SN_MODEL.get(key, DEFAULT_SN_MODEL[key])`, l.568. -/
def value (r : List (Key × Val)) (k : Key) : Val := ((r.find? fun e => e.1 = k).map (·.2)).getD (default k)

/-- `get_SN_MODEL`, l.540-545. -/
def getModel (name : List Char) : Key → Val :=
  match models.find? fun r => r.1 = name with
  | some r => value r.2
  | none => default

/-- `"use_" in key` -/
def contains (p : List Char) : List Char → Bool
  | [] => p.isEmpty
  | c :: cs => p.isPrefixOf (c :: cs) || contains p cs

/-- l.569 -/
def skipped (k : Key) : Bool := contains (chars! "use_") k.text || decide (k.text = (chars! "ECSN"))

/-- The loop over the keys for one model, l.567-581; `false` stands for `tmp` being set to `None`. -/
def agreeLoop (d : Key → Option Val) (r : List (Key × Val)) : List Key → Bool
  | [] => true
  | k :: ks =>
    if skipped k = true then agreeLoop d r ks
    else match d k with
      | none => false
      | some v => if v.eq (value r k) = true then agreeLoop d r ks else false

/-- `get_SN_MODEL_NAME`, l.564-586. -/
def nameLoop (d : Key → Option Val) : List Row → Option (List Char) → Option (List Char)
  | [], sel => sel
  | r :: rs, sel => nameLoop d rs (if agreeLoop d r.2 Key.all = true then some r.1 else sel)

def getName (d : Key → Option Val) : Option (List Char) := nameLoop d models none

/-- The settings of the supernova step in an ini file: those of the supernova model, and the names of all others. -/
structure Ini where
  set : Key → Option Val
  others : List (List Char)

inductive Err
  | key | value
  deriving DecidableEq

/-- `check_SN_MODEL_validity`, setup.py l.36-50. -/
def check (i : Ini) : Except Err Bool :=
  match i.set .useInterp with
  | none => .error .key
  | some v => if v.eq (.bool false) = true then .ok true else .ok (getName i.set).isSome

/-- The other settings of the step, step_SN.py l.247-260. -/
def otherNames : List (List Char) :=
  [(chars! "kick"), (chars! "kick_normalisation"), (chars! "kick_prescription"), (chars! "sigma_kick_CCSN_NS"), (chars! "mean_kick_CCSN_NS"),
   (chars! "sigma_kick_CCSN_BH"), (chars! "mean_kick_CCSN_BH"), (chars! "sigma_kick_ECSN"), (chars! "mean_kick_ECSN"), (chars! "RNG"),
   (chars! "verbose")]

/-- step_SN.py l.300-319 -/
def mechanisms : List (List Char) :=
  [(chars! "Fryer+12-rapid"), (chars! "Fryer+12-delayed"), (chars! "direct"), (chars! "direct_he_core"), (chars! "Sukhbold+16-engine"),
   (chars! "Patton&Sukhbold20-engine"), (chars! "Couch+20-engine"), (chars! "Maltsev+25-engine")]

/-- The settings of the step without the checks: step_SN.py l.273-274, 294-295. -/
def attrs (i : Ini) (k : Key) : Val :=
  let v := (i.set k).getD (default k)
  if k = .maxNu ∧ v = .none then .num 0 else v

/-- `StepSN.__init__`: a setting that is not known or a mechanism that is not known is refused (l.269-272, 321, 417-418). -/
def init (i : Ini) : Except Err (Key → Val) :=
  if i.others.all (fun o => decide (o ∈ otherNames)) = true then
    if attrs i .mechanism ∈ mechanisms.map Val.text then .ok (attrs i) else .error .value
  else .error .value

/-- `collapse_star`, l.574-584: the model whose interpolated values are used, if any. -/
def selected (s : Key → Val) : Except Err (Option (List Char)) :=
  if (s .useInterp).truthy = true then
    match getName fun k => some (s k) with
    | none => .error .value
    | some n => .ok (some n)
  else .ok none

/-- Making the step and using it for a star that collapses. -/
def run (i : Ini) : Except Err (Option (List Char)) :=
  match init i with
  | .error e => .error e
  | .ok s => selected s

/-! ### Specification -/

/-- The settings that decide on the model. -/
def deciding : List Key := [.mechanism, .engine, .pisn, .pisnShift, .ppi, .consEnv, .consPPI, .maxNu, .maxNS, .spinNone, .heDep]

/-- The settings agree with a model. -/
def Agrees (d : Key → Option Val) (m : Key → Val) : Prop := ∀ k ∈ deciding, ∃ v, d k = some v ∧ v.norm = (m k).norm

/-- The supported mechanisms with their engines. -/
def engines : List (List Char × List Char) :=
  [((chars! "Fryer+12-delayed"), []), ((chars! "Fryer+12-rapid"), []), ((chars! "Sukhbold+16-engine"), (chars! "N20")),
   ((chars! "Sukhbold+16-engine"), (chars! "W20")), ((chars! "Patton&Sukhbold20-engine"), (chars! "N20")),
   ((chars! "Patton&Sukhbold20-engine"), (chars! "W20")), ((chars! "Maltsev+25-engine"), (chars! "M16"))]

/-- The combination of settings that a pre-defined model stands for. -/
def combined (e : List Char × List Char) (ppi : ℚ) (env : Bool) : Key → Val
  | .mechanism => .text e.1
  | .engine => .text e.2
  | .ppi => .num ppi
  | .consEnv => .bool env
  | k => default k

/-! ### Lemmas -/

theorem deciding_iff (k : Key) : k ∈ deciding ↔ skipped k = false := by cases k <;> decide

theorem Val.eq_iff {a b : Val} : a.eq b = true ↔ a.norm = b.norm := by rw [Val.eq, decide_eq_true_eq]

theorem agreeLoop_iff (d : Key → Option Val) (r : List (Key × Val)) : ∀ ks : List Key,
    agreeLoop d r ks = true ↔ ∀ k ∈ ks, skipped k = false → ∃ v, d k = some v ∧ v.norm = (value r k).norm
  | [] => by simp [agreeLoop]
  | k :: ks => by
    rw [agreeLoop, List.forall_mem_cons]
    by_cases hs : skipped k = true
    · rw [if_pos hs, agreeLoop_iff d r ks]
      refine ⟨fun h => ⟨fun h' => ?_, h⟩, fun h => h.2⟩
      rw [hs] at h'; cases h'
    · rw [if_neg hs]
      have hs' : skipped k = false := by simpa using hs
      cases hd : d k with
      | none =>
        refine ⟨fun h => by (cases h), fun h => ?_⟩
        obtain ⟨v, hv, _⟩ := h.1 hs'
        cases hv
      | some v =>
        dsimp only
        by_cases he : v.eq (value r k) = true
        · rw [if_pos he, agreeLoop_iff d r ks]
          exact ⟨fun h => ⟨fun _ => ⟨v, rfl, Val.eq_iff.1 he⟩, h⟩, fun h => h.2⟩
        · rw [if_neg he]
          refine ⟨fun h => by (cases h), fun h => ?_⟩
          obtain ⟨w, hw, hn⟩ := h.1 hs'
          cases hw
          exact absurd (Val.eq_iff.2 hn) he

theorem agree_iff (d : Key → Option Val) (r : List (Key × Val)) : agreeLoop d r Key.all = true ↔ Agrees d (value r) := by
  rw [agreeLoop_iff]
  refine ⟨fun h k hk => h k (by cases k <;> decide) ((deciding_iff k).1 hk), fun h k _ hs => h k ((deciding_iff k).2 hs)⟩

/-- The last model that agrees is selected. -/
theorem nameLoop_some (d : Key → Option Val) : ∀ (rs : List Row) (sel : Option (List Char)) (n : List Char),
    nameLoop d rs sel = some n → sel = some n ∨ ∃ r ∈ rs, r.1 = n ∧ Agrees d (value r.2)
  | [], sel, n, h => .inl h
  | r :: rs, sel, n, h => by
    rw [nameLoop] at h
    rcases nameLoop_some d rs _ n h with h | ⟨r', hr', h⟩
    · by_cases ha : agreeLoop d r.2 Key.all = true
      · rw [if_pos ha] at h
        exact .inr ⟨r, List.mem_cons_self .., Option.some.inj h, (agree_iff d r.2).1 ha⟩
      · rw [if_neg ha] at h
        exact .inl h
    · exact .inr ⟨r', List.mem_cons_of_mem _ hr', h⟩

theorem nameLoop_none (d : Key → Option Val) : ∀ (rs : List Row) (sel : Option (List Char)),
    nameLoop d rs sel = none → sel = none ∧ ∀ r ∈ rs, ¬ Agrees d (value r.2)
  | [], sel, h => ⟨h, fun r hr => by cases hr⟩
  | r :: rs, sel, h => by
    rw [nameLoop] at h
    obtain ⟨h1, h2⟩ := nameLoop_none d rs _ h
    by_cases ha : agreeLoop d r.2 Key.all = true
    · rw [if_pos ha] at h1; cases h1
    · rw [if_neg ha] at h1
      refine ⟨h1, fun r' hr' => ?_⟩
      rcases List.mem_cons.1 hr' with rfl | hr'
      · exact fun h => ha ((agree_iff d _).2 h)
      · exact h2 r' hr'

/-- No two models agree on the settings that decide. -/
theorem models_distinct : (models.map fun r => deciding.map fun k => (value r.2 k).norm).Nodup := by decide +kernel

theorem models_names : (models.map (·.1)).Nodup := by decide +kernel

theorem inj_of_nodup {α β : Type} {f : α → β} : ∀ {l : List α}, (l.map f).Nodup → ∀ a ∈ l, ∀ b ∈ l, f a = f b → a = b
  | [], _, a, ha, _, _, _ => by cases ha
  | x :: l, h, a, ha, b, hb, he => by
    rw [List.map_cons, List.nodup_cons] at h
    rcases List.mem_cons.1 ha with rfl | ha' <;> rcases List.mem_cons.1 hb with rfl | hb'
    · rfl
    · exact absurd (he ▸ List.mem_map.2 ⟨b, hb', rfl⟩) h.1
    · exact absurd (he ▸ List.mem_map.2 ⟨a, ha', rfl⟩) h.1
    · exact inj_of_nodup h.2 a ha' b hb' he

theorem agrees_unique {d : Key → Option Val} {r r' : Row} (hr : r ∈ models) (hr' : r' ∈ models) (h : Agrees d (value r.2))
    (h' : Agrees d (value r'.2)) : r = r' := by
  refine inj_of_nodup models_distinct r hr r' hr' (List.map_congr_left fun k hk => ?_)
  obtain ⟨v, hv, hn⟩ := h k hk
  obtain ⟨v', hv', hn'⟩ := h' k hk
  rw [hv] at hv'
  cases hv'
  rw [← hn, hn']

theorem getModel_mem {r : Row} (hr : r ∈ models) : getModel r.1 = value r.2 := by
  unfold getModel
  cases h : models.find? fun r' => r'.1 = r.1 with
  | none =>
    have := List.find?_eq_none.1 h r hr
    simp at this
  | some r' =>
    have h1 := List.mem_of_find?_eq_some h
    have h2 := List.find?_some h
    simp only [decide_eq_true_eq] at h2
    rw [inj_of_nodup models_names r' h1 r hr h2]

end Verif.SNModels
