import Verif.Chars
import Verif.MTCase
import Mathlib.Tactic.Linarith
/-!
Model of the termination-flag logic: `/repo/posydon/grids/termination_flags.py` (`get_flag_from_MESA_output` l.54-99,
`infer_interpolation_class` l.275-304, `get_detected_initial_RLO` l.307-360, `get_nearest_known_initial_RLO` l.363-399)
and the flag pools of `/repo/posydon/visualization/combine_TF.py` l.16-66.

Simplifications: texts inspected character by character are lists of characters; a log file is the list of its lines
(`none`: no file); numbers are rationals.
-/
namespace Verif.TermFlags

/-- combine_TF.py l.16-31. -/
def tf1Stable : List String :=
  ["Primary has depleted central carbon", "Secondary has depleted central carbon",
   "Primary got stopped before central carbon depletion", "Secondary got stopped before central carbon depletion",
   "Primary enters pair-instability regime", "Secondary enters pair-instability regime",
   "Primary enters pulsational pair-instability regime", "Secondary enters pulsational pair-instability regime",
   "envelope_mass_limit", "gamma_center_limit", "max_age"]

/-- combine_TF.py l.33-47. -/
def tf1Unstable : List String :=
  ["overflow from L2 (D_L2) distance for q(=Macc/Mdon)>1, donor is star 1",
   "overflow from L2 (R_L2) surface for q(=Macc/Mdon)<1, donor is star 1",
   "overflow from L2 (R_L2) surface for q(=Macc/Mdon)>1, donor is star 1",
   "overflow from L2 (D_L2) distance for q(=Macc/Mdon)<1, donor is star 1",
   "overflow from L2 (R_L2) surface for q(=Macc/Mdon)<1, donor is star 2",
   "overflow from L2 (R_L2) surface for q(=Macc/Mdon)>1, donor is star 2",
   "Reached maximum mass transfer rate: 1d-1",
   "Reached maximum mass transfer rate: Exceeded photon trapping radius",
   "Both stars fill their Roche Lobe and at least one of them is off MS",
   "Terminate due to L2 overflow during case A",
   "Both stars fill their Roche Lobe and t_kh > t_acc",
   "overflow from L2, t_kh > t_acc and w > w_crit_lim, donor is star 1",
   "overflow from L2, t_kh > t_acc and w > w_crit_lim, donor is star 2"]

/-- combine_TF.py l.49-52. -/
def tf1Initial : List String := ["forced_initial_RLO", "Terminate because of overflowing initial model"]
/-- combine_TF.py l.54-58. -/
def tf1Error : List String := ["logQ_min_limit", "min_timestep_limit", "reach cluster timelimit"]

inductive IC | initialMT | notConverged | noMT | stableReverse | stable | unstable | unknown
  deriving DecidableEq, Repr

def caseWord : List Char := ['c', 'a', 's', 'e']

/-- `infer_interpolation_class`, l.275-304. -/
def inferClass (tf1 : String) (tf2 : List Char) : IC :=
  if tf1 ∈ tf1Initial ∨ tf2 = (chars! "initial_RLOF") then .initialMT
  else if tf1 ∈ tf1Error then .notConverged
  else if tf2 = (chars! "no_RLOF") then .noMT
  else if tf1 ∈ tf1Stable then
    if caseWord <:+: tf2 ∧ '1' ∈ tf2 ∧ '2' ∈ tf2 then .stableReverse else .stable
  else if tf1 ∈ tf1Unstable then .unstable
  else .unknown

/-! ### The termination code of a log file -/

/-- One line of the log, reduced to what the function looks at: the text after the prefix `termination code: ` or
`Terminate: ` if it has one (stripped), and whether it mentions `min_timestep_limit` / `Reached TPAGB`. -/
structure Line where
  code : Option String
  minStep : Bool
  tpagb : Bool
  deriving DecidableEq, Repr

/-- The loop over the reversed lines, l.78-99; `tc` is `termination_code`. -/
def scan (tc : String) : List Line → String
  | [] => if tc.length > 0 then tc else "reach cluster timelimit"
  | l :: ls => match l.code with
    | none => if l.minStep && l.tpagb then "Reached TPAGB" else scan tc ls
    | some c => if l.minStep then scan c ls else c

/-- `get_flag_from_MESA_output`, l.54-99. -/
def flagFromOutput (log : Option (List Line)) : String :=
  match log with
  | none => "reach cluster timelimit"
  | some ls => scan "" ls.reverse

/-! ### Boundary of initial overflow -/

/-- An entry of the list of detected systems; `flags` stands for the termination flags 3 and 4. -/
structure Sys where
  m1 : ℚ
  m2 : ℚ
  period : ℚ
  flags : String × String
  deriving DecidableEq, Repr

/-- `abs(d-m) < 1e-5` for both masses, l.336-337. -/
def near (a b : Sys) : Bool := decide (|a.m1 - b.m1| < 1 / 100000) && decide (|a.m2 - b.m2| < 1 / 100000)

/-- Body of the loop for an overflowing run, l.330-359. -/
def detectStep (det : List Sys) (r : Sys) : List Sys :=
  let det' := det.map (fun d => if near d r then (if d.period < r.period then r else d) else d)
  if det.any (fun d => near d r) then det' else det' ++ [r]

/-- `get_detected_initial_RLO`, l.307-360: runs with their termination flag 1. -/
def detected (runs : List (String × Sys)) : List Sys :=
  (runs.filter (fun r => r.1 == "Terminate because of overflowing initial model")).map Prod.snd |>.foldl detectStep []

/-- Squared distance in the mass plane, l.394. -/
def dist2 (m1 m2 : ℚ) (s : Sys) : ℚ := (m1 - s.m1) ^ 2 + (m2 - s.m2) ^ 2

/-- `get_nearest_known_initial_RLO`, l.363-399; `dflt` is the default entry with zero masses and period, `2` limits:
`MIN_COUNT_INITIAL_RLO_BOUNDARY` = 20 and the start value 1e99. -/
def nearest (dflt : Sys) (m1 m2 : ℚ) (known : List Sys) : Sys :=
  if known.length < 20 then dflt
  else (known.foldl (fun (acc : ℚ × Sys) s =>
    let d2 := dist2 m1 m2 s
    if d2 < acc.1 then (d2, s) else acc) (10 ^ 99, dflt)).2

/-! ### Lemmas -/

theorem near_self (a : Sys) : near a a = true := by simp [near]

theorem detectStep_append_or (det : List Sys) (r : Sys) : ∀ d ∈ detectStep det r, d ∈ det ∨ d = r := by
  intro d hd
  unfold detectStep at hd
  dsimp only at hd
  have h : d ∈ det.map (fun d => if near d r then (if d.period < r.period then r else d) else d) ∨ d = r := by
    split at hd
    · exact .inl hd
    · rcases List.mem_append.1 hd with h | h
      · exact .inl h
      · exact .inr (by simpa using h)
  rcases h with h | h
  · obtain ⟨a, ha, rfl⟩ := List.mem_map.1 h
    by_cases h1 : near a r = true
    · by_cases h2 : a.period < r.period
      · right; simp [h1, h2]
      · left; simpa [h1, h2] using ha
    · left; simpa [h1] using ha
  · exact .inr h

end Verif.TermFlags
