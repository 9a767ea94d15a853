import Mathlib.Analysis.SpecialFunctions.Pow.Real
import Mathlib.Data.List.Chain
import Mathlib.Data.List.Perm.Basic
import Mathlib.Tactic.Linarith

/-!
# The sampler of new grid points: Markov chains

Model of `posydon/active_learning/psy_cris/sample.py`: `Sampler.run_MCMC` (l.467-556) and
`Sampler.run_PTMCMC` (l.263-465).

Simplifications.  Floats are reals; positions are vectors of `d` reals; the target distribution is a
parameter.  The random draws are parameters: `noise` is the normal step and `chance` the
uniform number of each trial.  Printing and plots are left out.
-/

namespace Verif.Sampler

noncomputable section

open Classical

abbrev Pos (d : ℕ) := Fin d → ℝ

/-- The target distribution and the ranges of the inputs (l.51-52). -/
structure Env (d : ℕ) where
  target : Pos d → ℝ
  lo : Pos d
  hi : Pos d

/-- Whether a position is in the ranges (l.533-540). -/
def Env.Inside {d : ℕ} (e : Env d) (x : Pos d) : Prop := ∀ i, x i ≤ e.hi i ∧ e.lo i ≤ x i

/-- The value of a trial, which is set to 0 outside of the ranges (l.530-540). -/
def trialVal {d : ℕ} (e : Env d) (y : Pos d) : ℝ := if e.Inside y then e.target y else 0

/-- The probability to accept a trial (l.542-547). -/
def accProb {d : ℕ} (e : Env d) (T : ℝ) (x y : Pos d) : ℝ :=
  min 1 ((if e.target x = 0 then 0 else trialVal e y / e.target x) ^ (1 / T))

/-- The state of `run_MCMC`: the history but for its last entry, latest first, the last entry, and the
numbers of accepted and rejected trials. -/
structure St (d : ℕ) where
  past : List (Pos d)
  cur : Pos d
  acc : ℕ
  rej : ℕ

/-- The history in its order. -/
def St.hist {d : ℕ} (s : St d) : List (Pos d) := s.past.reverse ++ [s.cur]

/-- One trial (l.521-554). -/
def trial {d : ℕ} (e : Env d) (T : ℝ) (noise : Pos d) (chance : ℝ) (s : St d) : St d :=
  if chance ≤ accProb e T s.cur (s.cur + noise) then
    ⟨s.cur :: s.past, s.cur + noise, s.acc + 1, s.rej⟩
  else { s with rej := s.rej + 1 }

/-- The loop of `run_MCMC` (l.519-554), with the number of trials that are left as the first argument, which is
`N_trials` minus the number of trials so far; the draws of trial `k` are `noise k` and
`chance k`. -/
def loop {d : ℕ} (e : Env d) (T : ℝ) (limit : ℕ) (noise : ℕ → Pos d) (chance : ℕ → ℝ) :
    ℕ → St d → St d
  | 0, s => s
  | n + 1, s =>
    if s.rej < limit then
      loop e T limit noise chance n (trial e T (noise (s.acc + s.rej)) (chance (s.acc + s.rej)) s)
    else s

/-- `run_MCMC` (l.467-556) starting from one position, as `run_PTMCMC` calls it (l.367-377). -/
def runMCMC {d : ℕ} (e : Env d) (T : ℝ) (limit : ℕ) (noise : ℕ → Pos d) (chance : ℕ → ℝ)
    (N : ℕ) (start : Pos d) : St d :=
  loop e T limit noise chance N ⟨[], start, 0, 0⟩

/-- The temperatures (l.314-316): the results of the `while` loop, if it ends, by its steps. -/
inductive Ladder (c : ℝ) : ℝ → List ℝ → Prop where
  | stop (T : ℝ) : T ≤ 13 / 10 → Ladder c T [T]
  | more (T : ℝ) (l : List ℝ) : 13 / 10 < T → Ladder c (T ^ (1 / c)) l → Ladder c T (T :: l)

/-- The probability to swap the last positions of two neighbouring chains (l.411-429). -/
def swapProb {d : ℕ} (e : Env d) (Ti Tj : ℝ) (x y : Pos d) : ℝ :=
  let top := e.target y ^ (1 / Ti) * e.target x ^ (1 / Tj)
  let bot := e.target x ^ (1 / Ti) * e.target y ^ (1 / Tj)
  min 1 (if bot = 0 then 0 else top / bot)

/-- The swaps between neighbours (l.405-438); the draws of swap `i` are `u i`. -/
def swaps {d : ℕ} (e : Env d) : (ℕ → ℝ) → List ℝ → List (Pos d) → List (Pos d)
  | u, Ti :: Tj :: Ts, x :: y :: r =>
    if u 0 ≤ swapProb e Ti Tj x y then y :: swaps e (fun k => u (k + 1)) (Tj :: Ts) (x :: r)
    else x :: swaps e (fun k => u (k + 1)) (Tj :: Ts) (y :: r)
  | _, _, l => l

/-- The draws of one loop of `run_PTMCMC`: those of each chain and those of the swaps. -/
structure Draws (d : ℕ) where
  noise : ℕ → ℕ → Pos d
  chance : ℕ → ℕ → ℝ
  swap : ℕ → ℝ

/-- The chains of one loop (l.364-385). -/
def chainsAt {d : ℕ} (e : Env d) (Ts : List ℝ) (limit n : ℕ) (D : Draws d) (locs : List (Pos d)) :
    List (St d) :=
  (Ts.zip locs).zipIdx.map fun x =>
    runMCMC e x.1.1 limit (D.noise x.2) (D.chance x.2) n x.1.2

/-- The loops (l.360-443): the histories that are recorded in every loop, for each chain, and the
positions at the end. -/
def loops {d : ℕ} (e : Env d) (Ts : List ℝ) (limit n : ℕ) (D : ℕ → Draws d) :
    ℕ → List (Pos d) → List (List (List (Pos d))) × List (Pos d)
  | 0, locs => ([], locs)
  | m + 1, locs =>
    let ss := chainsAt e Ts limit n (D 0) locs
    let r := loops e Ts limit n (fun k => D (k + 1)) m (swaps e (D 0).swap Ts (ss.map (·.cur)))
    (ss.map (·.hist) :: r.1, r.2)

/-- The recorded chain number `i` (l.445-447). -/
def chainOf {d : ℕ} (h : List (List (List (Pos d)))) (i : ℕ) : List (Pos d) :=
  h.flatMap fun ss => ss.getD i []

/-- `run_PTMCMC` with the temperatures `Ts` (including the last one, 1): the number of loops
is `int(N_tot / N_draws_per_swap)` (l.330). -/
def runPT {d : ℕ} (e : Env d) (Ts : List ℝ) (limit nTot nSwap : ℕ) (D : ℕ → Draws d)
    (init : Pos d) : List (List (List (Pos d))) × List (Pos d) :=
  loops e Ts limit nSwap D (nTot / nSwap) (List.replicate Ts.length init)

/-! ### Helper lemmas -/

theorem trial_sum {d : ℕ} (e : Env d) (T : ℝ) (w : Pos d) (u : ℝ) (s : St d) :
    (trial e T w u s).acc + (trial e T w u s).rej = s.acc + s.rej + 1 := by
  unfold trial
  split <;> simp <;> omega

/-- Induction over the trials of the loop. -/
theorem loop_inv {d : ℕ} (e : Env d) (T : ℝ) (limit : ℕ) (noise : ℕ → Pos d) (chance : ℕ → ℝ)
    (I : St d → Prop)
    (hI : ∀ s, I s → s.rej < limit →
      I (trial e T (noise (s.acc + s.rej)) (chance (s.acc + s.rej)) s)) :
    ∀ n s, I s → I (loop e T limit noise chance n s)
  | 0, s, h => h
  | n + 1, s, h => by
    unfold loop
    by_cases hr : s.rej < limit
    · rw [if_pos hr]
      exact loop_inv e T limit noise chance I hI n _ (hI s h hr)
    · rw [if_neg hr]
      exact h

theorem loop_counts {d : ℕ} (e : Env d) (T : ℝ) (limit : ℕ) (noise : ℕ → Pos d) (chance : ℕ → ℝ) :
    ∀ n (s : St d), let r := loop e T limit noise chance n s
      r.acc + r.rej ≤ s.acc + s.rej + n ∧ (r.acc + r.rej = s.acc + s.rej + n ∨ limit ≤ r.rej) ∧
      (s.rej ≤ limit → r.rej ≤ limit)
  | 0, s => ⟨le_rfl, .inl rfl, id⟩
  | n + 1, s => by
    have hs := trial_sum e T (noise (s.acc + s.rej)) (chance (s.acc + s.rej)) s
    have ih := loop_counts e T limit noise chance n
      (trial e T (noise (s.acc + s.rej)) (chance (s.acc + s.rej)) s)
    dsimp only at ih ⊢
    unfold loop
    by_cases hr : s.rej < limit
    · rw [if_pos hr]
      have ht : (trial e T (noise (s.acc + s.rej)) (chance (s.acc + s.rej)) s).rej ≤ s.rej + 1 := by
        unfold trial; split <;> simp
      refine ⟨by omega, ?_, fun _ => ih.2.2 (by omega)⟩
      rcases ih.2.1 with h | h
      · exact .inl (by omega)
      · exact .inr h
    · rw [if_neg hr]
      exact ⟨by omega, .inr (by omega), id⟩

theorem swaps_perm {d : ℕ} (e : Env d) : ∀ (Ts : List ℝ) (u : ℕ → ℝ) (l : List (Pos d)),
    List.Perm (swaps e u Ts l) l
  | [], u, l => by simp [swaps]
  | [_], u, l => by simp [swaps]
  | _ :: _ :: _, u, [] => by simp [swaps]
  | _ :: _ :: _, u, [_] => by simp [swaps]
  | Ti :: Tj :: Ts, u, x :: y :: r => by
    unfold swaps
    split
    · exact ((swaps_perm e (Tj :: Ts) _ (x :: r)).cons y).trans (List.Perm.swap x y r)
    · exact (swaps_perm e (Tj :: Ts) _ (y :: r)).cons x

end

end Verif.Sampler
