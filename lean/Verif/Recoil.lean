import Verif.SNStepProps
import Verif.KickProps
/-!
The motion of a binary, the tilts of its orbit and the kicks of its stars through the steps of its evolution.

The supernova is the step of `Verif.SNStep` (`/repo/posydon/binary_evol/SN/step_SN.py` l.443-520, 1458-2053), its recoil that of `Verif.Kick`. The other
steps do not touch tilts, anomalies and kicks; what they do to `V_sys` and its history is modelled here. Not included: the rows of NaN of the option
`MESA_history_bug_fix` (step_mesa.py l.575-581), and stopping on a track (C70). The history of a new binary holds its first velocity (binarystar.py
l.170-187), so that it is never empty.
-/
namespace Verif.Recoil

open Verif.SNStep

noncomputable section

/-- `V_sys` and `V_sys_history`. -/
structure Motion where
  v : Val
  hist : List Val

/-- What a step other than a supernova does with the velocity. -/
inductive Act
  /-- a grid step with a track: with or without a row for the initial conditions, and the rows of the track (none if values are interpolated) -/
  | grid (save : Bool) (rows : ℕ)
  /-- a grid step without a track, or one that hands the binary on (step_mesa.py l.374-378 and the `redirect` events) -/
  | pass
  /-- the detached step, also that of stars without a companion and of merger products, with its times -/
  | detached (times : ℕ)
  /-- two compact objects -/
  | compact (times : ℕ)
  /-- the common envelope -/
  | envelope

/-- `update_after_evo` for `V_sys`, step_detached.py l.637-644 and 721-731: the same value at all times, recorded if there are several; `history[-1]` fails
without times. -/
def detachedV (times : ℕ) (m : Motion) : Option Motion :=
  if times = 0 then none else some ⟨m.v, if times > 1 then m.hist ++ List.replicate times m.v else m.hist⟩

/-- `none` is an IndexError. Grid: step_mesa.py l.557-563 and 897-899. Two compact objects: double_CO.py l.138-140. Common envelope: step_CEE.py l.1067-1081. -/
def run (a : Act) (m : Motion) : Option Motion :=
  match a with
  | .grid save rows =>
    match m.hist.getLast? with
    | none => none
    | some w => some ⟨w, m.hist ++ (if save then [w] else []) ++ List.replicate rows w⟩
  | .pass => some m
  | .detached times => detachedV times m
  | .compact times =>
    match detachedV times m with
    | none => none
    | some r =>
      match r.hist.getLast? with
      | none => none
      | some w => some ⟨w, r.hist⟩
  | .envelope => some m

/-- `BinaryStar.append_state`, binarystar.py l.306-321; `skip`: an event that hands the binary on is not recorded. -/
def append (skip : Bool) (m : Motion) : Motion := if skip then m else ⟨m.v, m.hist ++ [m.v]⟩

/-- What is followed here of a binary. -/
structure Tale where
  state : String
  motion : Motion
  firstSN : Bool
  nu1 : Option Val
  /-- tilts of the first supernova, of both stars -/
  tilt11 : Val
  tilt12 : Val
  /-- tilts of the second supernova, of both stars -/
  tilt21 : Val
  tilt22 : Val
  kicks1 : Option ℝ × Option ℝ × Option ℝ × Option ℝ
  kicks2 : Option ℝ × Option ℝ × Option ℝ × Option ℝ

/-- The binary of the supernova step with the history of its velocity. -/
def view (b : Binary) (hist : List Val) : Tale :=
  ⟨b.state, ⟨b.attr "V_sys", hist⟩, b.firstSN, b.nu1, b.s1.tilt1, b.s2.tilt1, b.s1.tilt2, b.s2.tilt2, b.s1.kicks, b.s2.kicks⟩

/-- One step; the number counts supernovae. A single, merged or disrupted binary stays one of these (step_isolated.py l.43-54, C135). -/
inductive Step (kick : Bool) : ℕ → Tale → Tale → Prop
  | other (a : Act) (skip : Bool) (x : Tale) (m : Motion) (state : String) (h : run a x.motion = some m) (hs : alone x.state = true → alone state = true) :
      Step kick 0 x { x with state := state, motion := append skip m }
  | supernova (c : Cfg) (b b' : Binary) (hist : List Val) (hk : c.kick = kick) (h : step c b = .ok b') :
      Step kick 1 (view b hist) { view b' hist with motion := append false (view b' hist).motion }

/-- Steps one after the other. -/
inductive Steps (kick : Bool) : ℕ → Tale → Tale → Prop
  | done (x : Tale) : Steps kick 0 x x
  | next {m n : ℕ} {x y z : Tale} (h : Step kick m x y) (t : Steps kick n y z) : Steps kick (m + n) x z

/-- A new binary: one row, no supernova so far. -/
structure New (x : Tale) : Prop where
  hist : x.motion.hist = [x.motion.v]
  first : x.firstSN = false

/-! ### Specification -/

/-- A list made of constant pieces. -/
def pieces (l : List (Val × ℕ)) : List Val := l.flatMap fun p => List.replicate p.2 p.1

/-- Velocities add. -/
def plus : Val → Val → Option Val
  | .vec a b c, .vec x y z => some (.vec (a + x) (b + y) (c + z))
  | _, _ => none

end
end Verif.Recoil
